import Verif.Proofs.WritersAny
import Verif.Proofs.WritersEnd

/-! Several writes at once, their callbacks overlapping: all calls return, and later writes repair the tree. -/

set_option linter.unusedSectionVars false

namespace PoL.Verkle
open PoL.PP Sparse Spec

variable {G1 G2 GT : Type} [AddCommGroup G1] [Module Zr G1] [AddCommGroup G2] [Module Zr G2]
  [AddCommGroup GT] [Module Zr GT] [DecidableEq G1] [DecidableEq GT]

section
variable {E : Curve G1 G2 GT} {α : Zr} {F L : ℕ} {T : List ℕ → Prop} {A : List ℕ → ℤ} {ex : List ℕ → Prop}
  {root : Sparse.Vertex Data}

/-- The events that a writer still has before it. -/
def ahead (L i : ℕ) (w : Writer) : List Event :=
  if w.started then
    match w.pending with
    | none => (List.replicate (L - w.done) [.reads i, .writes i]).flatten
    | some _ => .writes i :: (List.replicate (L - (w.done + 1)) [.reads i, .writes i]).flatten
  else .sets i :: (List.replicate L [.reads i, .writes i]).flatten

/-- What is kept about the writers. -/
def WriterOk (L : ℕ) (w : Writer) : Prop :=
  w.done ≤ L ∧ (w.started = false → w.done = 0 ∧ w.pending = none) ∧ (w.pending.isSome → w.done < L)

/-- The next event of a writer can happen. -/
theorem Anyhow.next (hE : E.Lawful) {env : Env} (henv : env.Lawful) (hF : F + 2 ≤ 65536)
    (hpre : ∀ q p, q <+: p → T p → T q) {r : Running} (h : Anyhow E α F L T A r) {e : Event}
    {w : Writer} (hw : r.writers[eventWriter e]? = some w) (hok : WriterOk L w) {rest : List Event}
    (hrest : ahead L (eventWriter e) w = e :: rest) :
    ∃ r' w', r.step E (newPublicParams E α (F + 2)) env F e = some r' ∧ r'.writers = r.writers.set (eventWriter e) w' ∧
      WriterOk L w' ∧ ahead L (eventWriter e) w' = rest := by
  obtain ⟨o1, o2, o3⟩ := hok
  have hlen := (h.writer w (List.mem_of_getElem? hw)).1
  cases hst : w.started with
  | false =>
    obtain ⟨d0, p0⟩ := o2 hst
    unfold ahead at hrest
    rw [hst, if_neg (by simp), List.cons.injEq] at hrest
    obtain ⟨he, hrest⟩ := hrest
    obtain ⟨r', h1, -, h3⟩ := h.sets (env := env) hw hst
    refine ⟨r', { w with started := true }, by rw [← he]; exact h1, h3, ⟨o1, fun hc => by simp at hc, o3⟩, ?_⟩
    unfold ahead
    rw [if_pos rfl]
    dsimp only
    rw [p0, d0, ← hrest]
    rfl
  | true =>
    unfold ahead at hrest
    rw [hst, if_pos rfl] at hrest
    cases hp : w.pending with
    | none =>
      rw [hp] at hrest
      dsimp only at hrest
      have hd : w.done < L := by
        by_contra hc
        rw [show L - w.done = 0 by omega] at hrest
        simp at hrest
      rw [show L - w.done = (L - (w.done + 1)) + 1 by omega, List.replicate_succ, List.flatten_cons, List.cons_append,
        List.cons.injEq] at hrest
      obtain ⟨he, hrest⟩ := hrest
      obtain ⟨r', kb, h1, -, h3⟩ := h.reads hE henv hF hpre hw hst hp (by omega)
      refine ⟨r', { w with pending := some kb }, by rw [← he]; exact h1, h3,
        ⟨o1, fun hc => by rw [hst] at hc; simp at hc, fun _ => hd⟩, ?_⟩
      unfold ahead
      dsimp only
      rw [hst, if_pos rfl, ← hrest]
      rfl
    | some kb =>
      rw [hp] at hrest
      dsimp only at hrest
      have hd := o3 (by rw [hp]; rfl)
      rw [List.cons.injEq] at hrest
      obtain ⟨he, hrest⟩ := hrest
      obtain ⟨r', h1, -, h3⟩ := h.writes (env := env) hw hp
      refine ⟨r', { w with done := w.done + 1, pending := none }, by rw [← he]; exact h1, h3,
        ⟨by show w.done + 1 ≤ L; omega, fun hc => by dsimp only at hc; rw [hst] at hc; simp at hc, fun hc => by simp at hc⟩, ?_⟩
      unfold ahead
      dsimp only
      rw [hst, if_pos rfl, ← hrest]

/-- Events in any order that keeps each writer's own. -/
theorem Anyhow.all (hE : E.Lawful) {env : Env} (henv : env.Lawful) (hF : F + 2 ≤ 65536)
    (hpre : ∀ q p, q <+: p → T p → T q) (events : List Event) {r : Running} (h : Anyhow E α F L T A r)
    (hok : ∀ w ∈ r.writers, WriterOk L w) (hin : ∀ e ∈ events, eventWriter e < r.writers.length)
    (hown : ∀ i w, r.writers[i]? = some w → events.filter (fun e => decide (eventWriter e = i)) = ahead L i w) :
    ∃ r', r.run E (newPublicParams E α (F + 2)) env F events = some r' ∧ r'.writers.length = r.writers.length ∧
      (∀ w ∈ r'.writers, WriterOk L w) ∧ ∀ i w, r'.writers[i]? = some w → ahead L i w = [] := by
  induction events generalizing r A with
  | nil => exact ⟨r, rfl, rfl, hok, fun i w hw => (hown i w hw).symm⟩
  | cons e events ih =>
    have hlt := hin e (by simp)
    obtain ⟨w, hw⟩ : ∃ w, r.writers[eventWriter e]? = some w := ⟨_, List.getElem?_eq_getElem hlt⟩
    have hrest := (hown _ w hw).symm
    rw [List.filter_cons_of_pos (by simp)] at hrest
    obtain ⟨r1, w1, c1, c2, c3, c4⟩ := h.next hE henv hF hpre hw (hok w (List.mem_of_getElem? hw)) hrest
    obtain ⟨h1, -⟩ := h.step hE henv hF hpre c1
    obtain ⟨r2, d1, d2, d3, d4⟩ := ih h1 (fun x hx => by
        rw [c2] at hx
        rcases List.mem_or_eq_of_mem_set hx with hx | rfl
        · exact hok x hx
        · exact c3) (fun e' he' => by rw [c2, List.length_set]; exact hin e' (by simp [he'])) (by
      intro i x hx
      rw [c2] at hx
      by_cases hi : i = eventWriter e
      · subst hi
        rw [List.getElem?_set_self hlt, Option.some.injEq] at hx
        subst hx
        exact c4.symm
      · rw [List.getElem?_set_ne (Ne.symm hi)] at hx
        have := hown i x hx
        rw [List.filter_cons_of_neg (by simpa using Ne.symm hi)] at this
        exact this)
    refine ⟨r2, ?_, by rw [d2, c2, List.length_set], d3, d4⟩
    rw [run_cons, c1, Option.bind_some]
    exact d1

/-- A writer with nothing before it has returned. -/
theorem ended_of_ahead {i : ℕ} {w : Writer} (hlen : w.path.length = L) (hok : WriterOk L w) (h : ahead L i w = []) :
    w.started = true ∧ w.done = w.path.length ∧ w.pending = none := by
  unfold ahead at h
  split_ifs at h with hst
  cases hp : w.pending with
  | some kb => rw [hp] at h; simp at h
  | none =>
    rw [hp] at h
    dsimp only at h
    refine ⟨hst, ?_, rfl⟩
    by_contra hc
    obtain ⟨k, hk⟩ : ∃ k, L - w.done = k + 1 := ⟨L - w.done - 1, by have := hok.1; omega⟩
    rw [hk, List.replicate_succ] at h
    simp at h

theorem vertexAt_setLeaf (d : Data) (q rest : List ℕ) (v u : Sparse.Vertex Data) (hu : vertexAt q v = some u) :
    vertexAt q (setLeaf d (q ++ rest) v) = some (setLeaf d rest u) := by
  induction q generalizing v with
  | nil =>
    rw [vertexAt, Option.some.injEq] at hu
    subst hu
    rfl
  | cons a t ih =>
    rw [vertexAt] at hu
    cases hd : descGet v.desc a with
    | none => rw [hd] at hu; simp at hu
    | some w =>
      rw [hd, Option.bind_some] at hu
      rw [List.cons_append, setLeaf, hd]
      dsimp only
      rw [vertexAt]
      have e2 : (Sparse.Vertex.mk v.key v.data (descSet v.desc a (setLeaf d (t ++ rest) w))).desc
          = descSet v.desc a (setLeaf d (t ++ rest) w) := rfl
      rw [e2, descGet_descSet, if_pos rfl, Option.bind_some]
      exact ih w hu

/-- What may differ from its parent's entry when the write of `p` has come up to `q`. -/
def exAt (ex : List ℕ → Prop) (p q c : List ℕ) : Prop :=
  (ex c ∧ ¬ (c <+: p ∧ q.length < c.length)) ∨ (c = q ∧ q ≠ [])

/-- `Put` at a written path. -/
theorem Inv.putAt (hE : E.Lawful) {env : Env} (henv : env.Lawful) (hF : F + 2 ≤ 65536)
    (hpre : ∀ q p, q <+: p → T p → T q) (hm : Mem F L T A root) {p : List ℕ} (hp : p.length = L) (hT : T p) (n : ℤ) {s : State}
    (h : Inv E α F L T A ex s.db) (rest q : List ℕ) (hq : q ++ rest = p) {u : Sparse.Vertex Data} (hu : vertexAt q root = some u)
    (ps : Str) :
    ∃ s', Sparse.putAt F (updateInnerVertex E (newPublicParams E α (F + 2)) env) (some (.amount n)) rest ps u s
      = some (setLeaf (.amount n) rest u, s') ∧ Inv E α F L T (Function.update A p n) (exAt ex p q) s'.db ∧
      (Running.mk [⟨p, n, true, 0, none⟩] (setLeaf (.amount n) p root) s).run E (newPublicParams E α (F + 2)) env F
        (List.replicate rest.length [.reads 0, .writes 0]).flatten
        = some ⟨[⟨p, n, true, rest.length, none⟩], setLeaf (.amount n) p root, s'⟩ := by
  induction rest generalizing q u ps with
  | nil =>
    rw [List.append_nil] at hq
    subst hq
    refine ⟨s, rfl, ?_, rfl⟩
    constructor
    · intro q' hq' hT'
      obtain ⟨bf, vals, V, h1, h2, h3⟩ := h.leaf q' hq' hT'
      refine ⟨bf, vals, V, h1, h2, fun i hi hn => ?_⟩
      have hne : q' ++ [i] ≠ q := by
        intro hc
        exact hn (Or.inr ⟨hc, by rw [← hc]; simp⟩)
      rw [Function.update_of_ne hne]
      refine h3 i hi fun hc => hn (Or.inl ⟨hc, fun hx => ?_⟩)
      have := hx.1.length_le
      omega
    · intro q' hq' hT'
      obtain ⟨bf, vals, digs, h1, h2, h3, h4⟩ := h.inner q' hq' hT'
      refine ⟨bf, vals, digs, h1, h2, h3, fun i hi hn => ?_⟩
      refine h4 i hi fun hc => hn (Or.inl ⟨hc, fun hx => ?_⟩)
      have := hx.1.length_le
      omega
  | cons i rest ih =>
    have hql : q.length + 1 + rest.length = L := by
      rw [← hp, ← hq]; simp; omega
    have hTi : T (q ++ [i]) := hpre _ _ ⟨rest, by rw [← hq]; simp⟩ hT
    have hTq : T q := hpre _ _ ⟨[i], rfl⟩ hTi
    obtain ⟨w, hw⟩ := hm.there _ hTi
    have hd := hw
    rw [vertexAt_concat q i root u hu] at hd
    obtain ⟨s1, hs1, hinv, hrun⟩ := ih (q ++ [i]) (by rw [← hq]; simp) hw (childKey ps i)
    have hm' := hm.set hp hT n
    have hu' : vertexAt q (setLeaf (.amount n) p root) = some (setLeaf (.amount n) (i :: rest) u) := by
      rw [← hq]
      exact vertexAt_setLeaf _ q (i :: rest) root u hu
    have hset : setLeaf (.amount n) (i :: rest) u = .mk u.key u.data (descSet u.desc i (setLeaf (.amount n) rest w)) := by
      rw [setLeaf, hd]
    obtain ⟨raw, x, k1, k2, k3, k4⟩ := hinv.call hE henv hF hm' (q := q) (i := i) (by omega) hTi hTq
      (ex' := exAt ex p q) (by
        rintro c (⟨hc1, hc2⟩ | ⟨rfl, -⟩)
        · by_cases hcp : c <+: p ∧ q.length < c.length
          · left
            have hlen : c.length = (q ++ [i]).length := by
              by_contra hne
              refine hc2 ⟨hcp.1, ?_⟩
              simp at hne ⊢
              omega
            exact (List.prefix_of_prefix_length_le hcp.1 ⟨rest, by rw [← hq]; simp⟩ hlen.le).eq_of_length hlen
          · exact Or.inr (Or.inl ⟨hc1, hcp⟩)
        · exact Or.inl rfl) (fun hq0 => Or.inr ⟨rfl, hq0⟩) hu'
    refine ⟨_, ?_, k4, ?_⟩
    rotate_left
    · have hk3 : decide (q.length + 1 = L) = decide (rest.length = 0) := by
        rw [decide_eq_decide]; omega
      rw [hk3] at k3
      have s1' := step_reads (E := E) (F := F) (PP := newPublicParams E α (F + 2)) (env := env)
        (r := ⟨[⟨p, n, true, rest.length, none⟩], setLeaf (.amount n) p root, s1⟩) (i := 0) (w := ⟨p, n, true, rest.length, none⟩)
        rfl rfl rfl (by show rest.length < p.length; omega) (q := q) (j := i) (rest := rest) hq.symm rfl hu' k2 k1 k3
      have s2' := step_writes (E := E) (F := F) (PP := newPublicParams E α (F + 2)) (env := env)
        (r := ⟨[⟨p, n, true, rest.length, some (keyOf q, (store E env (keyOf q) x s1).db (keyOf q))⟩],
          setLeaf (.amount n) p root, { s1 with tick := (store E env (keyOf q) x s1).tick }⟩) (i := 0)
        (w := ⟨p, n, true, rest.length, some (keyOf q, (store E env (keyOf q) x s1).db (keyOf q))⟩) rfl rfl
      dsimp only at s2'
      rw [store_put] at s2'
      rw [List.length_cons, List.replicate_succ', List.flatten_append, run_append, hrun, Option.bind_some]
      show Running.run E (newPublicParams E α (F + 2)) env F _ [.reads 0, .writes 0] = _
      rw [run_cons, s1', Option.bind_some, run_cons]
      refine obind_step s2' ?_
      rfl
    have hdata := (hm.inner q u (by omega) hu).2.1
    rw [hset] at k1 k2 k3 ⊢
    rw [Sparse.putAt]
    dsimp only
    rw [hd, Option.getD_some]
    refine obind_step hs1 ?_
    dsimp only
    refine obind_step k1 ?_
    have hb : rest.isEmpty = decide (q.length + 1 = L) := by
      rw [Bool.eq_iff_iff, List.isEmpty_iff, decide_eq_true_iff, ← List.length_eq_zero_iff]
      omega
    rw [hb]
    refine obind_step k3 ?_
    rw [hdata]
    rfl

/-- `Put` in terms of the walk. -/
theorem put_of_putAt {env : Env} {t : Tree G1 G2 GT} (hPP : t.PP = newPublicParams E α (F + 2)) (hfan : t.fanOut = F) {id : Str}
    {p : List ℕ} (hp : t.id2Path id = some p) {n : ℤ} {r r' : Sparse.Vertex Data} {s s' : State}
    (h : Sparse.putAt F (updateInnerVertex E (newPublicParams E α (F + 2)) env) (some (.amount n)) p [] r s = some (r', s')) :
    ({ t with root := some r } : Tree G1 G2 GT).put E env id n s = some ({ t with root := some r' }, s') := by
  unfold Tree.put
  have hs : (Tree.sparse E env ({ t with root := some r } : Tree G1 G2 GT)).put id (some (.amount n)) s
      = some ({ Tree.sparse E env ({ t with root := some r } : Tree G1 G2 GT) with root := some r' }, s') := by
    unfold Sparse.Tree.put
    refine obind_step (show (Tree.sparse E env ({ t with root := some r } : Tree G1 G2 GT)).id2Path id = some p from hp) ?_
    have hup : (Tree.sparse E env ({ t with root := some r } : Tree G1 G2 GT)).update
      = updateInnerVertex E (newPublicParams E α (F + 2)) env := by rw [← hPP]; rfl
    have hfo : (Tree.sparse E env ({ t with root := some r } : Tree G1 G2 GT)).fanOut = F := hfan
    have hrt : (Tree.sparse E env ({ t with root := some r } : Tree G1 G2 GT)).root.getD (.mk [] none []) = r := rfl
    dsimp only
    rw [hup, hfo, hrt]
    exact obind_step h rfl
  exact obind_step hs rfl

/-- Writes of written paths one after the other: the entries on their paths are right again. -/
theorem Inv.puts (hE : E.Lawful) {env : Env} (henv : env.Lawful) (hF : F + 2 ≤ 65536)
    (hpre : ∀ q p, q <+: p → T p → T q) {t : Tree G1 G2 GT} (hPP : t.PP = newPublicParams E α (F + 2)) (hfan : t.fanOut = F)
    (hroot : t.root = some root) {g : List (List ℕ × ℤ)} (hm : Mem F L T (latest g) root) {s : State}
    (h : Inv E α F L T (latest g) ex s.db) (again : List (Str × ℤ))
    (hag : ∀ e ∈ again, ∃ p, t.id2Path e.1 = some p ∧ p.length = L ∧ T p) :
    ∃ root' s', t.puts E env again s = some ({ t with root := some root' }, s') ∧
      Mem F L T (latest (g ++ byPath t.id2Path again)) root' ∧
      Inv E α F L T (latest (g ++ byPath t.id2Path again))
        (fun c => ex c ∧ (c = [] ∨ ¬ touched (byPath t.id2Path again) c)) s'.db := by
  induction again using List.reverseRecOn with
  | nil =>
    refine ⟨root, s, ?_, ?_, ?_⟩
    · rw [vputs_nil, ← hroot]
    · simpa [byPath] using hm
    · have e : latest (g ++ byPath t.id2Path []) = latest g := by simp [byPath]
      rw [e]
      exact h.mono fun c _ _ hc => ⟨hc, Or.inr (by rintro ⟨x, hx, -⟩; simp [byPath] at hx)⟩
  | append_singleton again e ih =>
    obtain ⟨r1, s1, c1, c2, c3⟩ := ih fun e' he' => hag e' (by simp [he'])
    obtain ⟨p, hp, hpl, hTp⟩ := hag e (by simp)
    have hb : byPath t.id2Path (again ++ [e]) = byPath t.id2Path again ++ [(p, e.2)] := by
      simp [byPath, hp]
    have hl : latest (g ++ byPath t.id2Path (again ++ [e]))
        = Function.update (latest (g ++ byPath t.id2Path again)) p e.2 := by
      rw [hb, ← List.append_assoc]
      exact (update_latest _ (p, e.2)).symm
    obtain ⟨s2, d1, d2, -⟩ := c3.putAt hE henv hF hpre c2 hpl hTp e.2 p [] rfl (u := r1) rfl []
    refine ⟨setLeaf (.amount e.2) p r1, s2, ?_, ?_, ?_⟩
    · rw [vputs_concat, c1, Option.bind_some]
      exact put_of_putAt hPP hfan hp d1
    · rw [hl]
      exact c2.set hpl hTp _
    · rw [hl]
      refine d2.mono fun c hc0 hTc hc => ?_
      rcases hc with ⟨⟨h1, h2⟩, h3⟩ | ⟨rfl, h3⟩
      · refine ⟨h1, Or.inr ?_⟩
        rw [hb]
        rintro ⟨x, hx, hcx⟩
        rcases List.mem_append.1 hx with hx | hx
        · rcases h2 with h2 | h2
          · exact hc0 h2
          · exact h2 ⟨x, hx, hcx⟩
        · rw [List.mem_singleton] at hx
          subst hx
          refine h3 ⟨hcx, ?_⟩
          have := List.length_pos_of_ne_nil hc0
          simpa using this
      · exact absurd rfl h3

/-- After a history of writes, further writes of written paths can begin. -/
theorem start_any {E : Curve G1 G2 GT} (hE : E.Lawful) {env : Env} (henv : env.Lawful) {α : Zr} {F : ℕ}
    {t t' : Tree G1 G2 GT} (hF : F + 2 ≤ 65536) (hPP : t.PP = newPublicParams E α (F + 2)) (hfan : t.fanOut = F)
    (hroot : t.root = none) {L : ℕ} (hL : 1 ≤ L) {hist : List (Str × ℤ)} {s s' : State}
    (hids : ValidIds t.id2Path F L hist) (h : t.puts E env hist s = some (t', s')) {v : Sparse.Vertex Data}
    (hv : t'.root = some v) (news : List (List ℕ × ℤ))
    (hnew : ∀ e ∈ news, e.1 ∈ (byPath t.id2Path hist).map Prod.fst) :
    Anyhow E α F L (touched (byPath t.id2Path hist)) (latest (byPath t.id2Path hist)) (Running.start news v s') := by
  have hb := start_between hE henv hF hPP hfan hroot hL hids h hv [] (by simp) (by simp)
  refine ⟨hb.mem, hb.inv.mono fun _ _ _ _ => trivial, fun w hw => ?_, fun w hw k b hkb => ?_⟩
  · obtain ⟨e, he, rfl⟩ := List.mem_map.1 hw
    have hm := hnew e he
    obtain ⟨e', he', hee⟩ := List.mem_map.1 hm
    exact ⟨(byPath_length hids _ (List.mem_toFinset.2 hm)).1, e', he', by rw [hee]⟩
  · obtain ⟨e, he, rfl⟩ := List.mem_map.1 hw
    simp at hkb

theorem latest_not_mem (h : List (List ℕ × ℤ)) (p : List ℕ) (hp : p ∉ h.map Prod.fst) : latest h p = 0 := by
  induction h using List.reverseRecOn with
  | nil => rfl
  | append_singleton h e ih =>
    rw [List.map_append, List.mem_append, not_or] at hp
    rw [latest_snoc, if_neg (fun hc => hp.2 (by simp [hc])), ih hp.1]

theorem latest_append_mem (h h' : List (List ℕ × ℤ)) (p : List ℕ) (hp : p ∈ h'.map Prod.fst) :
    latest (h ++ h') p = latest h' p := by
  induction h' using List.reverseRecOn with
  | nil => simp at hp
  | append_singleton h' e ih =>
    rw [← List.append_assoc, latest_snoc, latest_snoc]
    split_ifs with hc
    · rfl
    · rw [List.map_append, List.mem_append] at hp
      rcases hp with hp | hp
      · exact ih hp
      · exact absurd (by simp at hp; exact hp.symm) hc

end

end PoL.Verkle
