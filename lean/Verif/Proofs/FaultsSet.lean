import Verif.Spec.Faults
import Verif.Proofs.FaultsTree
import Verif.Proofs.RecoverSet
import Verif.Proofs.WritersRepair

/-! Database calls failing inside a `Set`: sequences of calls. -/

set_option linter.unusedSectionVars false

namespace PoL.Pol
open PoL.PP Sparse Spec Verkle

variable {G1 G2 GT : Type} [AddCommGroup G1] [Module Zr G1] [AddCommGroup G2] [Module Zr G2]
  [AddCommGroup GT] [Module Zr GT] [DecidableEq G1] [DecidableEq GT]

section
variable (E : Curve G1 G2 GT) (env : Env)

theorem setsF_concat (ls : LiabilitySet G1 G2 GT) (as : List Attempt) (a : Attempt) :
    ls.setsF E env (as ++ [a]) = ((ls.setsF E env as).1 ++ [((ls.setsF E env as).2.setF E env a).1],
      ((ls.setsF E env as).2.setF E env a).2) := by
  induction as generalizing ls with
  | nil => rfl
  | cons b as ih =>
    rw [List.cons_append, LiabilitySet.setsF, LiabilitySet.setsF]
    dsimp only
    rw [ih]
    rfl

theorem setsF_length (ls : LiabilitySet G1 G2 GT) (as : List Attempt) : (ls.setsF E env as).1.length = as.length := by
  induction as generalizing ls with
  | nil => rfl
  | cons b as ih =>
    rw [LiabilitySet.setsF, List.length_cons, List.length_cons, ih]

theorem setF_neg (ls : LiabilitySet G1 G2 GT) (a : Attempt) (h : a.amount < 0) : ls.setF E env a = (false, ls) := by
  unfold LiabilitySet.setF
  rw [if_pos h]

theorem setF_path (ls : LiabilitySet G1 G2 GT) (a : Attempt) (h : ¬ a.amount < 0) {p : List ℕ}
    (hp : ls.tree.id2Path a.id = some p) :
    let r := putAtR ls.tree.fanOut (updateFaulty E ls.tree.PP env a.faults) (some (.amount a.amount)) p [] (top ls) ls.s
    ls.setF E env a = (r.ok, { ls with tree := { ls.tree with root := some r.vertex }, s := r.state }) := by
  intro r
  unfold LiabilitySet.setF Tree.putF
  rw [if_neg h, hp]
  rfl

theorem setF_fields (ls : LiabilitySet G1 G2 GT) (a : Attempt) :
    (ls.setF E env a).2.tree.id2Path = ls.tree.id2Path ∧ (ls.setF E env a).2.tree.PP = ls.tree.PP ∧
      (ls.setF E env a).2.tree.fanOut = ls.tree.fanOut ∧ (ls.setF E env a).2.pp = ls.pp := by
  by_cases h : a.amount < 0
  · rw [setF_neg E env ls a h]; exact ⟨rfl, rfl, rfl, rfl⟩
  · cases hp : ls.tree.id2Path a.id with
    | none =>
      have : ls.setF E env a = (false, ls) := by
        unfold LiabilitySet.setF Tree.putF
        rw [if_neg h, hp]
      rw [this]
      exact ⟨rfl, rfl, rfl, rfl⟩
    | some p =>
      rw [setF_path E env ls a h hp]; exact ⟨rfl, rfl, rfl, rfl⟩

theorem setsF_fields (ls : LiabilitySet G1 G2 GT) (as : List Attempt) :
    (ls.setsF E env as).2.tree.id2Path = ls.tree.id2Path ∧ (ls.setsF E env as).2.tree.PP = ls.tree.PP ∧
      (ls.setsF E env as).2.tree.fanOut = ls.tree.fanOut ∧ (ls.setsF E env as).2.pp = ls.pp := by
  induction as using List.reverseRecOn with
  | nil => exact ⟨rfl, rfl, rfl, rfl⟩
  | append_singleton as a ih =>
    rw [setsF_concat]
    obtain ⟨h1, h2, h3, h4⟩ := setF_fields E env (ls.setsF E env as).2 a
    exact ⟨h1.trans ih.1, h2.trans ih.2.1, h3.trans ih.2.2.1, h4.trans ih.2.2.2⟩

end

theorem tried_concat (as : List Attempt) (a : Attempt) :
    tried (as ++ [a]) = if a.amount < 0 then tried as else tried as ++ [(a.id, a.amount)] := by
  unfold tried
  rw [List.filterMap_append]
  split_ifs with h
  · simp [h]
  · simp [h]

theorem outcomes_concat (id2Path : Str → Option (List ℕ)) (as : List Attempt) (oks : List Bool) (h : oks.length = as.length)
    (a : Attempt) (ok : Bool) : outcomes id2Path (as ++ [a]) (oks ++ [ok])
      = if a.amount < 0 then outcomes id2Path as oks else outcomes id2Path as oks ++ [((id2Path a.id).getD [], ok)] := by
  unfold outcomes
  rw [List.zip_append h.symm, List.filterMap_append]
  split_ifs with h
  · simp [h]
  · simp [h]

/-- The paths tried and the paths with an outcome are the same. -/
theorem outcomes_paths (id2Path : Str → Option (List ℕ)) (as : List Attempt) (oks : List Bool) (h : oks.length = as.length) :
    (outcomes id2Path as oks).map Prod.fst = (byPath id2Path (tried as)).map Prod.fst := by
  induction as using List.reverseRecOn generalizing oks with
  | nil => cases oks <;> rfl
  | append_singleton as a ih =>
    obtain ⟨oks, ok, rfl⟩ : ∃ l b, oks = l ++ [b] := by
      have hne : oks ≠ [] := by rintro rfl; simp at h
      exact ⟨_, _, (List.dropLast_append_getLast hne).symm⟩
    have hl : oks.length = as.length := by simpa using h
    rw [outcomes_concat _ _ _ hl, tried_concat]
    split_ifs
    · exact ih oks hl
    · rw [List.map_append, ih oks hl]
      simp [byPath]

/-- Some later call may not have returned. -/
def exOf (out : List (List ℕ × Bool)) (c : List ℕ) : Prop := ∃ p, lastPut out p = some false ∧ c <+: p

/-- Some call has returned. -/
def dnOf (out : List (List ℕ × Bool)) (c : List ℕ) : Prop := ∃ p, (p, true) ∈ out ∧ c <+: p

/-- What is known after any calls. -/
structure Struggling (E : Curve G1 G2 GT) (α : Zr) (F L : ℕ) (hist : List (List ℕ × ℤ)) (out : List (List ℕ × Bool))
    (ls : LiabilitySet G1 G2 GT) : Prop where
  loose : Loose E α F (latest hist) (fun c => exOf out c ∨ hist = [] ∧ c = []) (dnOf out) ls.s.db L [] (top ls)
  find : ∀ q, (Sparse.find q (top ls)).isSome ↔ q = [] ∨ touched hist q
  root : ls.tree.root = none ∧ hist = [] ∨ ∃ v, ls.tree.root = some v ∧ hist ≠ []

theorem find_fresh (k : Str) (q : List ℕ) : (Sparse.find q (.mk k none [] : Sparse.Vertex Data)).isSome ↔ q = [] := by
  cases q with
  | nil => simp [Sparse.find_nil]
  | cons x t => rw [Sparse.find_cons]; simp [Sparse.Vertex.desc, descGet]

theorem find_putAtR_isSome {D σ : Type} (fanOut : ℕ) (upd : UpdateR D σ) (data : Option D) (path : List ℕ) (ps : Str)
    (v : Sparse.Vertex D) (s : σ) (q : List ℕ) :
    (Sparse.find q (putAtR fanOut upd data path ps v s).vertex).isSome ↔ q <+: path ∨ (Sparse.find q v).isSome := by
  by_cases hq : q <+: path
  · refine ⟨fun _ => .inl hq, fun _ => ?_⟩
    obtain ⟨r, rfl⟩ := hq
    have := find_putAtR_self fanOut upd data (q ++ r) ps v s
    rw [Sparse.find_append] at this
    cases h : Sparse.find q (putAtR fanOut upd data (q ++ r) ps v s).vertex with
    | none => rw [h] at this; simp at this
    | some u => rfl
  · have := congrArg Option.isSome (find_putAtR_off fanOut upd data path ps v s q hq)
    rw [Option.isSome_map, Option.isSome_map] at this
    rw [this]
    exact ⟨.inr, fun h => h.resolve_left hq⟩

/-- One more call. -/
theorem Struggling.set {E : Curve G1 G2 GT} (hE : E.Lawful) {env : Env} (henv : env.Lawful) {α : Zr} {F L : ℕ}
    (hF : F + 2 ≤ 65536) {hist : List (List ℕ × ℤ)} {out : List (List ℕ × Bool)} {ls : LiabilitySet G1 G2 GT}
    (hPP : ls.tree.PP = newPublicParams E α (F + 2)) (hfan : ls.tree.fanOut = F) (hL : 1 ≤ L)
    (h : Struggling E α F L hist out ls) (a : Attempt) (ha : ¬ a.amount < 0) {p : List ℕ} (hp : ls.tree.id2Path a.id = some p)
    (hpl : p.length = L) (hpF : ∀ x ∈ p, x < F) :
    Struggling E α F L (hist ++ [(p, a.amount)]) (out ++ [(p, (ls.setF E env a).1)]) (ls.setF E env a).2 ∧
      ((ls.setF E env a).1 = false → load E (ls.setF E env a).2.s.db [] = load E ls.s.db [] ∧
        (top (ls.setF E env a).2).data = (top ls).data) ∧
      (a.faults = Faults.none → (ls.setF E env a).1 = true) := by
  have hne : p ≠ [] := by rintro rfl; simp at hpl; omega
  have hin : Loose E α F (latest hist) (fun c => (exOf out c ∨ hist = [] ∧ c = []) ∨ c <+: p) (dnOf out) ls.s.db p.length []
      (top ls) := by
    rw [hpl]
    exact h.loose.congr (fun _ => rfl) (fun _ => rfl) (fun _ h => .inl h) (fun _ h => h)
  have hput := Loose.put hE henv hF a.faults a.amount p [] hpF (fun c hc => .inr hc) (fun _ => hin)
  have hset := setF_path E env ls a ha hp
  dsimp only at hset
  rw [hPP, hfan] at hset
  have hks : keyOf [] = [] := rfl
  rw [hks] at hput
  have hfind := find_putAtR_isSome F (updateFaulty E (newPublicParams E α (F + 2)) env a.faults) (some (.amount a.amount)) p [] (top ls) ls.s
  generalize putAtR F (updateFaulty E (newPublicParams E α (F + 2)) env a.faults) (some (.amount a.amount)) p [] (top ls) ls.s
    = r at hset hput hfind
  obtain ⟨ls', hls', htop, hs', hroot'⟩ : ∃ ls', ls.setF E env a = (r.ok, ls') ∧ top ls' = r.vertex ∧ ls'.s = r.state ∧
      ls'.tree.root = some r.vertex := ⟨_, hset, rfl, rfl, rfl⟩
  rw [hls']
  dsimp only
  rw [htop, hs']
  have hA : ∀ t : List ℕ, latest (hist ++ [(p, a.amount)]) ([] ++ t) = Function.update (latest hist) ([] ++ p) a.amount ([] ++ t) := by
    intro t
    rw [← update_latest hist (p, a.amount)]
    rfl
  refine ⟨⟨?_, fun q => ?_, .inr ⟨_, hroot', by simp⟩⟩, fun hno => ?_, hput.none⟩
  · rw [htop, hs', ← hpl]
    cases hok : r.ok with
    | true =>
      refine (hput.ok hok).1.congr (fun _ => rfl) hA (fun t hc => ?_) (fun t hc => ?_)
      · obtain ⟨hc, hn⟩ := hc
        simp only [List.nil_append] at hc hn ⊢
        rcases hc with (⟨p', h1, h2⟩ | ⟨-, rfl⟩) | hc
        · refine .inl ⟨p', ?_, h2⟩
          rw [lastPut_concat, if_neg (by rintro rfl; exact hn h2)]
          exact h1
        · exact absurd List.nil_prefix hn
        · exact absurd hc hn
      · simp only [List.nil_append] at hc ⊢
        obtain ⟨p', h1, h2⟩ := hc
        rcases List.mem_append.1 h1 with h1 | h1
        · exact .inl ⟨p', h1, h2⟩
        · simp at h1
          subst h1
          exact .inr h2
    | false =>
      refine (hput.failed hok).1.congr (fun _ => rfl) hA (fun t hc => ?_) (fun t hc => ?_)
      · simp only [List.nil_append] at hc ⊢
        rcases hc with (⟨p', h1, h2⟩ | ⟨-, rfl⟩) | hc
        · refine .inl ⟨p', ?_, h2⟩
          rw [lastPut_concat]
          split_ifs
          · rfl
          · exact h1
        · exact .inl ⟨p, by rw [lastPut_concat, if_pos rfl], List.nil_prefix⟩
        · exact .inl ⟨p, by rw [lastPut_concat, if_pos rfl], hc⟩
      · simp only [List.nil_append] at hc ⊢
        obtain ⟨p', h1, h2⟩ := hc
        rcases List.mem_append.1 h1 with h1 | h1
        · exact ⟨p', h1, h2⟩
        · simp at h1
  · rw [htop, hfind q, h.find q]
    constructor
    · rintro (hq | rfl | ⟨e, he, hq⟩)
      · exact .inr ⟨(p, a.amount), by simp, hq⟩
      · exact .inl rfl
      · exact .inr ⟨e, by simp [he], hq⟩
    · rintro (rfl | ⟨e, he, hq⟩)
      · exact .inl List.nil_prefix
      · rcases List.mem_append.1 he with he | he
        · exact .inr (.inr ⟨e, he, hq⟩)
        · rw [List.mem_singleton] at he
          subst he
          exact .inl hq
  · obtain ⟨-, h1, h2, -⟩ := hput.failed hno
    exact ⟨h1, h2⟩

theorem Struggling.start {E : Curve G1 G2 GT} {α : Zr} {F L : ℕ} {ls : LiabilitySet G1 G2 GT} (hroot : ls.tree.root = none)
    (hL : 1 ≤ L) : Struggling E α F L [] [] ls := by
  obtain ⟨m, rfl⟩ : ∃ m, L = m + 1 := ⟨L - 1, by omega⟩
  refine ⟨?_, fun q => ?_, .inl ⟨hroot, rfl⟩⟩
  · rw [top_fresh hroot]
    exact Loose.fresh m [] (fun t => by rintro ⟨p, hp, -⟩; simp at hp) (.inr ⟨rfl, rfl⟩)
  · rw [top_fresh hroot, find_fresh]
    refine ⟨.inl, ?_⟩
    rintro (h | ⟨e, he, -⟩)
    · exact h
    · simp at he

/-- Any calls. -/
theorem struggling {E : Curve G1 G2 GT} (hE : E.Lawful) {env : Env} (henv : env.Lawful) {α : Zr} {F L : ℕ}
    (hF : F + 2 ≤ 65536) {ls : LiabilitySet G1 G2 GT} (hPP : ls.tree.PP = newPublicParams E α (F + 2)) (hfan : ls.tree.fanOut = F)
    (hroot : ls.tree.root = none) (hL : 1 ≤ L) (as : List Attempt) (hids : ValidIds ls.tree.id2Path F L (tried as)) :
    Struggling E α F L (byPath ls.tree.id2Path (tried as)) (outcomes ls.tree.id2Path as (ls.setsF E env as).1)
      (ls.setsF E env as).2 := by
  induction as using List.reverseRecOn with
  | nil => exact Struggling.start hroot hL
  | append_singleton as a ih =>
    rw [setsF_concat]
    dsimp only
    rw [outcomes_concat _ _ _ (setsF_length E env ls as)]
    rw [tried_concat] at hids ⊢
    split_ifs at hids ⊢ with ha
    · rw [setF_neg _ _ _ _ ha]
      exact ih hids
    · have hs := ih fun e he => hids e (by simp [he])
      obtain ⟨p, h1, h2, h3⟩ := hids (a.id, a.amount) (by simp)
      obtain ⟨f1, f2, f3, -⟩ := setsF_fields E env ls as
      have := (hs.set hE henv hF (f2.trans hPP) (f3.trans hfan) hL a ha (p := p) (by rw [f1]; exact h1) h2 h3).1
      dsimp only at h1
      rw [h1, Option.getD_some]
      have hb : byPath ls.tree.id2Path (tried as ++ [(a.id, a.amount)]) = byPath ls.tree.id2Path (tried as) ++ [(p, a.amount)] := by
        simp [byPath, h1]
      rw [hb]
      exact this

/-- The vertex found at a path. -/
theorem Loose.at {E : Curve G1 G2 GT} {α : Zr} {F : ℕ} {A : List ℕ → ℤ} {ex dn : List ℕ → Prop} {db : Db} (q : List ℕ) {h : ℕ}
    {pre : List ℕ} {v u : Sparse.Vertex Data} (hv : Loose E α F A ex dn db (q.length + h) pre v) (hu : Sparse.find q v = some u) :
    Loose E α F A ex dn db h (pre ++ q) u := by
  induction q generalizing pre v with
  | nil =>
    rw [Sparse.find_nil, Option.some.injEq] at hu
    subst hu
    simpa using hv
  | cons x t ih =>
    rw [Sparse.find_cons] at hu
    obtain ⟨w, hw, hu⟩ := Option.bind_eq_some_iff.1 hu
    have e : (x :: t).length + h = (t.length + h) + 1 := by simp; omega
    rw [e] at hv
    have := ih (hv.2.1 x w hw).2 hu
    rwa [List.append_assoc] at this

section
variable {E : Curve G1 G2 GT} {α : Zr} {F L : ℕ} {hist : List (List ℕ × ℤ)} {out : List (List ℕ × Bool)}
  {ls : LiabilitySet G1 G2 GT}

theorem Struggling.vertex (h : Struggling E α F L hist out ls) {q : List ℕ} {u : Sparse.Vertex Data} (hq : q.length ≤ L)
    (hu : Sparse.find q (top ls) = some u) :
    Loose E α F (latest hist) (fun c => exOf out c ∨ hist = [] ∧ c = []) (dnOf out) ls.s.db (L - q.length) q u := by
  have := h.loose
  rw [show L = q.length + (L - q.length) by omega] at this
  exact Loose.at q this hu

/-- `Get` of a path that was once set. -/
theorem Struggling.get {env : Env} (h : Struggling E α F L hist out ls) {id : Str} {p : List ℕ}
    (hp : ls.tree.id2Path id = some p) (hpl : p.length = L) (hok : (p, true) ∈ out) (hmem : p ∈ hist.map Prod.fst) :
    ls.get E env id = some (some (latest hist p)) := by
  obtain ⟨e, he, rfl⟩ := List.mem_map.1 hmem
  have hT : ∀ i, (Sparse.find (e.1.take i) (top ls)).isSome := fun i => (h.find _).2 (.inr ⟨e, he, List.take_prefix _ _⟩)
  have hu : ∀ i, ∃ u, Sparse.find (e.1.take i) (top ls) = some u := fun i => Option.isSome_iff_exists.1 (hT i)
  choose us hus using hu
  have hdata : ∀ i, i < L → (us i).data = some (.key (keyOf (e.1.take i))) ∧
      ∃ x, load E ls.s.db (keyOf (e.1.take i)) = some x := by
    intro i hi
    have hl := h.vertex (by rw [List.length_take]; omega) (hus i)
    have hlen : L - (e.1.take i).length = (L - i - 1) + 1 := by rw [List.length_take]; omega
    rw [hlen] at hl
    refine hl.stored ?_
    obtain ⟨-, -, -, hl⟩ := hl
    rcases hl with ⟨-, hn, -⟩ | ⟨hd, -⟩
    · exact absurd ⟨e.1, hok, List.take_prefix _ _⟩ hn
    · rw [hd]; rfl
  have hx : ∀ i, ∃ x, i < L → Verkle.Vertex.fromBytes E (ls.s.db (keyOf (e.1.take i))) = some x := by
    intro i
    by_cases hi : i < L
    · obtain ⟨x, hx⟩ := (hdata i hi).2
      exact ⟨x, fun _ => load_fromBytes hx⟩
    · exact ⟨⟨0, .empty, .empty, 0, 0, none⟩, fun hc => absurd hc hi⟩
  choose fx hfx using hx
  obtain ⟨w, hw⟩ : ∃ w, Sparse.find e.1 (top ls) = some w :=
    Option.isSome_iff_exists.1 ((h.find _).2 (.inr ⟨e, he, List.prefix_rfl⟩))
  have hleaf := h.vertex (by omega) hw
  rw [hpl, Nat.sub_self] at hleaf
  obtain ⟨vs, hg, hvl⟩ := getAt_eq e.1 (top ls) w hw
  obtain ⟨-, -, hvs⟩ := getAt_some_iff e.1 (top ls) _ vs hg
  have hvs' : vs = (List.range L).map us := by
    apply List.ext_getElem?
    intro i
    by_cases hi : i < L
    · rw [hvs i (by omega), List.getElem?_map, List.getElem?_range hi, Option.map_some, hus i]
    · rw [List.getElem?_eq_none (by omega), List.getElem?_eq_none (by simp; omega)]
  obtain ⟨v, hroot⟩ : ∃ v, ls.tree.root = some v := by
    rcases h.root with ⟨-, hc⟩ | ⟨v, hv, -⟩
    · rw [hc] at he; simp at he
    · exact ⟨v, hv⟩
  have htop : top ls = v := by unfold top; rw [hroot]; rfl
  have hs : (ls.tree.sparse E env).get id = some (some (some (.amount (latest hist e.1)), (List.range L).map us)) := by
    unfold Sparse.Tree.get
    refine obind_step hp ?_
    have : (ls.tree.sparse E env).root = some v := hroot
    rw [this]
    dsimp only
    rw [htop] at hg
    rw [hg, show w.data = some (.amount (latest hist e.1)) from hleaf, hvs']
    rfl
  have := get_of_path (fun i hi => (hdata i hi).1) hs ls.s.db fx (fun i hi => hfx i hi)
  unfold LiabilitySet.get
  rw [this]
  rfl

/-- When all calls are settled, memory and database are as after the last amounts. -/
theorem Struggling.settled (h : Struggling E α F L hist out ls) (hlen : ∀ e ∈ hist, e.1.length = L) (hs : Settled out)
    (hne : hist ≠ []) : ∃ v, ls.tree.root = some v ∧ Mem F L (touched hist) (latest hist) v ∧
      Inv E α F L (touched hist) (latest hist) (fun _ => False) ls.s.db := by
  obtain ⟨v, hv⟩ : ∃ v, ls.tree.root = some v := by
    rcases h.root with ⟨-, hc⟩ | ⟨v, hv, -⟩
    · exact absurd hc hne
    · exact ⟨v, hv⟩
  have htop : top ls = v := by unfold top; rw [hv]; rfl
  have hroot : touched hist [] := by
    cases hist with
    | nil => exact absurd rfl hne
    | cons e l => exact ⟨e, by simp, List.nil_prefix⟩
  have hfind : ∀ q, (Sparse.find q v).isSome ↔ touched hist q := by
    intro q
    rw [← htop, h.find q]
    refine ⟨?_, .inr⟩
    rintro (rfl | hq)
    · exact hroot
    · exact hq
  have hex : ∀ c, ¬ (exOf out c ∨ hist = [] ∧ c = []) := by
    rintro c (⟨p, hp, -⟩ | ⟨hc, -⟩)
    · exact hs p hp
    · exact hne hc
  have hchild : ∀ q u, Sparse.find q v = some u → ∀ i, Sparse.find (q ++ [i]) v = descGet u.desc i := by
    intro q u hu i
    rw [Sparse.find_append, hu, Option.bind_some, Sparse.find_cons]
    cases descGet u.desc i <;> rfl
  have hat : ∀ q u m, q.length + (m + 1) = L → Sparse.find q v = some u → u.key = keyOf q ∧
      (∀ i w, descGet u.desc i = some w → i < F) ∧ u.data = some (.key (keyOf q)) ∧
      Entered E α F (latest hist) (fun c => exOf out c ∨ hist = [] ∧ c = []) ls.s.db q u.desc m := by
    intro q u m hq hu
    have hl := h.vertex (by omega) (htop ▸ hu)
    rw [show L - q.length = m + 1 by omega] at hl
    obtain ⟨k1, k2, -, k4⟩ := hl
    rcases k4 with ⟨-, -, k4⟩ | k4
    · exact absurd k4 (hex _)
    · exact ⟨k1, fun i w hw => (k2 i w hw).1, k4⟩
  refine ⟨v, hv, ⟨?_, ?_, ?_⟩, ⟨?_, ?_⟩⟩
  · intro q hq
    rw [vertexAt_find]
    exact Option.isSome_iff_exists.1 ((hfind q).2 hq)
  · intro q u hq hu
    rw [vertexAt_find] at hu
    obtain ⟨k1, k2, k3, -⟩ := hat q u (L - q.length - 1) (by omega) hu
    exact ⟨k1, k3, k2⟩
  · intro q u hq hu
    rw [vertexAt_find] at hu
    have hl := h.vertex (by omega) (htop ▸ hu)
    rw [hq, Nat.sub_self] at hl
    exact hl
  · intro q hq hT
    obtain ⟨u, hu⟩ := Option.isSome_iff_exists.1 ((hfind q).2 hT)
    obtain ⟨-, -, -, bf, vals, V, k1, k2, k3⟩ := hat q u 0 (by omega) hu
    have hT' : ∀ i, (descGet u.desc i).isSome ↔ touched hist (q ++ [i]) := fun i => by rw [← hchild q u hu, hfind]
    refine ⟨bf, vals, V, k1, fun i => ⟨fun hi => (hT' i).1 (k2 i hi), fun hi => ?_⟩, fun i hi _ => k3 i ((hT' i).2 hi) (hex _)⟩
    rw [k3 i ((hT' i).2 hi) (hex _)]
    rfl
  · intro q hq hT
    obtain ⟨u, hu⟩ := Option.isSome_iff_exists.1 ((hfind q).2 hT)
    obtain ⟨m, hm⟩ : ∃ m, q.length + (m + 1 + 1) = L := ⟨L - q.length - 2, by omega⟩
    obtain ⟨-, -, -, bf, vals, digs, k1, k2, k3, k4⟩ := hat q u (m + 1) hm hu
    have hT' : ∀ i, (descGet u.desc i).isSome ↔ touched hist (q ++ [i]) := fun i => by rw [← hchild q u hu, hfind]
    have hvals : ∀ i, (vals i).isSome = true ↔ touched hist (q ++ [i]) := by
      intro i
      refine ⟨fun hi => ?_, fun hi => ?_⟩
      · obtain ⟨w, hw, -⟩ := k3 i hi
        exact (hT' i).1 (by rw [hw]; rfl)
      · obtain ⟨y, -, hy, -⟩ := k4 i ((hT' i).2 hi) (hex _)
        rw [hy]; rfl
    exact ⟨bf, vals, digs, k1, hvals, fun i => by rw [← k2 i]; exact hvals i, fun i hi _ => k4 i ((hT' i).2 hi) (hex _)⟩

end

theorem setsF_keys (E : Curve G1 G2 GT) (env : Env) (ls : LiabilitySet G1 G2 GT) (as : List Attempt) (h : KeysOk [] (top ls)) :
    KeysOk [] (top (ls.setsF E env as).2) := by
  induction as using List.reverseRecOn with
  | nil => exact h
  | append_singleton as a ih =>
    rw [setsF_concat]
    by_cases ha : a.amount < 0
    · rw [setF_neg _ _ _ _ ha]; exact ih
    · cases hp : (ls.setsF E env as).2.tree.id2Path a.id with
      | none =>
        have : (ls.setsF E env as).2.setF E env a = (false, (ls.setsF E env as).2) := by
          unfold LiabilitySet.setF Tree.putF
          rw [if_neg ha, hp]
        rw [this]; exact ih
      | some p =>
        rw [setF_path E env _ a ha hp]
        exact ih.putAtR

theorem load_fromBytes_eq (E : Curve G1 G2 GT) (db : Db) (k : Str) : load E db k = Verkle.Vertex.fromBytes E (db k) := by
  rw [load_eq]
  split_ifs with h0
  · rw [List.length_eq_zero_iff.1 h0, fromBytes_nil]
  · rfl

/-- What the total proof depends on. -/
theorem proveTot_load (E : Curve G1 G2 GT) {ls ls' : LiabilitySet G1 G2 GT} (hpp : ls'.pp = ls.pp)
    (h : load E ls'.s.db [] = load E ls.s.db []) : ls'.proveTot E = ls.proveTot E := by
  rw [load_fromBytes_eq, load_fromBytes_eq] at h
  unfold LiabilitySet.proveTot LiabilitySet.openSumFromVertex
  rw [h, hpp]

end PoL.Pol
