import Verif.Proofs.VerkleHist

/-! Blinding factors. -/

set_option linter.unusedSectionVars false

namespace PoL.Verkle
open PoL.PP Sparse Spec

variable {G1 G2 GT : Type} [AddCommGroup G1] [Module Zr G1] [AddCommGroup G2] [Module Zr G2]
  [AddCommGroup GT] [Module Zr GT] [DecidableEq G1] [DecidableEq GT]

/-- What the callback does to the state and to the blinding factor. -/
theorem update_blinding {E : Curve G1 G2 GT} {PP : PP G1 G2 GT} {env : Env} {key : Str} {node : Option Data}
    {ds : List (Option Data)} {l : Bool} {i : ℕ} {s s' : State} {d : Option Data}
    (h : updateInnerVertex E PP env key node ds l i s = some (d, s')) :
    ∃ x : Vertex G1, s' = store E env key x s ∧ d = some (.key key) ∧
      (node = none → x.blindingFactor = env.rand s.tick) ∧
      (node ≠ none → ∃ x0, load E s.db key = some x0 ∧ x.blindingFactor = x0.blindingFactor) := by
  unfold updateInnerVertex at h
  cases l with
  | true =>
    rw [if_pos rfl] at h
    unfold updateLayerAboveLeaves at h
    cases node with
    | none =>
      dsimp only at h
      obtain ⟨a, -, h⟩ := obind_elim h
      obtain ⟨V, -, h⟩ := obind_elim h
      simp only [Option.pure_def, Option.some.injEq, Prod.mk.injEq] at h
      exact ⟨_, h.2.symm, h.1.symm, fun _ => rfl, fun hc => absurd rfl hc⟩
    | some nd =>
      dsimp only at h
      obtain ⟨x0, h0, h⟩ := obind_elim h
      obtain ⟨_, -, h⟩ := obind_elim h
      obtain ⟨_, -, h⟩ := obind_elim h
      obtain ⟨_, -, h⟩ := obind_elim h
      obtain ⟨_, -, h⟩ := obind_elim h
      obtain ⟨_, -, h⟩ := obind_elim h
      simp only [Option.pure_def, Option.some.injEq, Prod.mk.injEq] at h
      exact ⟨_, h.2.symm, h.1.symm, fun hc => by simp at hc, fun _ => ⟨x0, h0, rfl⟩⟩
  | false =>
    rw [if_neg (by simp)] at h
    unfold updateInnerLayer at h
    cases node with
    | none =>
      dsimp only at h
      obtain ⟨a, -, h⟩ := obind_elim h
      obtain ⟨V, -, h⟩ := obind_elim h
      obtain ⟨W, -, h⟩ := obind_elim h
      simp only [Option.pure_def, Option.some.injEq, Prod.mk.injEq] at h
      exact ⟨_, h.2.symm, h.1.symm, fun _ => rfl, fun hc => absurd rfl hc⟩
    | some nd =>
      dsimp only at h
      obtain ⟨x0, h0, h⟩ := obind_elim h
      obtain ⟨_, -, h⟩ := obind_elim h
      obtain ⟨_, -, h⟩ := obind_elim h
      obtain ⟨_, -, h⟩ := obind_elim h
      obtain ⟨_, -, h⟩ := obind_elim h
      split_ifs at h
      obtain ⟨_, -, h⟩ := obind_elim h
      obtain ⟨_, -, h⟩ := obind_elim h
      simp only [Option.pure_def, Option.some.injEq, Prod.mk.injEq] at h
      exact ⟨_, h.2.symm, h.1.symm, fun hc => by simp at hc, fun _ => ⟨x0, h0, rfl⟩⟩

/-- There is a vertex with data at `r`. -/
def Live (v : Sparse.Vertex Data) (r : List ℕ) : Prop := ∃ u, Sparse.find r v = some u ∧ u.data ≠ none

theorem putAt_blinding {E : Curve G1 G2 GT} (hE : E.Lawful) {env : Env} (henv : env.Lawful) {PP : PP G1 G2 GT}
    {F : ℕ} {data : Option Data} {path pre : List ℕ} {v v' : Sparse.Vertex Data} {s s' : State}
    (h : putAt F (updateInnerVertex E PP env) data path (keyOf pre) v s = some (v', s')) (hk : KeysOk pre v) :
    s'.tick = s.tick + path.length ∧
    (∀ k, (∀ r, r <+: path → r.length < path.length → k ≠ keyOf (pre ++ r)) → s'.db k = s.db k) ∧
    (∀ r, r <+: path → r.length < path.length → ∃ x : Vertex G1, load E s'.db (keyOf (pre ++ r)) = some x ∧
      (Live v r → ∃ x0, load E s.db (keyOf (pre ++ r)) = some x0 ∧ x.blindingFactor = x0.blindingFactor) ∧
      (¬ Live v r → x.blindingFactor = env.rand (s.tick + (path.length - 1 - r.length)))) := by
  induction path generalizing pre v v' s s' with
  | nil =>
    obtain ⟨-, rfl⟩ := putAt_nil h
    exact ⟨rfl, fun _ _ => rfl, fun r _ hr => by simp at hr⟩
  | cons p rest ih =>
    obtain ⟨child', s1, d, h1, -, h3, rfl⟩ := putAt_cons h
    rw [childKey_keyOf] at h1
    have hkc := hk.child p
    rw [childKey_keyOf] at hkc
    obtain ⟨i1, i2, i3⟩ := ih h1 hkc
    obtain ⟨x, rfl, rfl, hx1, hx2⟩ := update_blinding h3
    have hkey : v.key = keyOf pre := by simpa using hk [] v rfl
    rw [hkey] at hx2 ⊢
    have hne : ∀ r, keyOf (pre ++ [p] ++ r) ≠ keyOf pre := by
      intro r hc
      have := congrArg List.length (keyOf_injective hc)
      simp at this
    have hself : s1.db (keyOf pre) = s.db (keyOf pre) := i2 _ (fun r _ _ hc => hne r hc.symm)
    refine ⟨?_, ?_, ?_⟩
    · simp only [store, i1, List.length_cons]; omega
    · intro k hk'
      rw [store_db _ _ _ _ _ _ (by have := hk' [] List.nil_prefix (by simp); rwa [List.append_nil] at this)]
      apply i2
      intro r hr hl
      have := hk' (p :: r) (List.cons_prefix_cons.2 ⟨rfl, hr⟩) (by simpa using hl)
      simpa using this
    · intro r hr hl
      cases r with
      | nil =>
        rw [List.append_nil]
        refine ⟨x, load_store_self hE henv _ _ _, ?_, ?_⟩
        · rintro ⟨u, hu, hd⟩
          rw [find_nil, Option.some.injEq] at hu
          subst hu
          obtain ⟨x0, h0, h01⟩ := hx2 hd
          exact ⟨x0, by rw [← load_congr E hself]; exact h0, h01⟩
        · intro hnl
          have hd : v.data = none := by
            by_contra hc
            exact hnl ⟨v, rfl, hc⟩
          rw [hx1 hd, i1]
          simp
      | cons a r =>
        obtain ⟨rfl, hr'⟩ := List.cons_prefix_cons.1 hr
        have hl : r.length < rest.length := by simpa using hl
        obtain ⟨y, hy1, hy2, hy3⟩ := i3 r hr' hl
        have e : pre ++ a :: r = pre ++ [a] ++ r := by simp
        rw [e]
        have hlive : Live ((descGet v.desc a).getD (.mk (keyOf (pre ++ [a])) none [])) r ↔ Live v (a :: r) := by
          unfold Live
          by_cases hr0 : r = []
          · subst hr0
            cases hd : descGet v.desc a with
            | none =>
              rw [find_cons, hd]
              simp [find_nil, Sparse.Vertex.data]
            | some w =>
              rw [find_cons, hd]
              simp [find_nil]
          · rw [find_getD _ _ _ _ hr0]
        refine ⟨y, ?_, ?_, ?_⟩
        · rw [load_congr E (store_db _ _ _ _ _ _ (hne r))]
          exact hy1
        · exact fun hL => hy2 (hlive.2 hL)
        · intro hL
          rw [hy3 (fun hc => hL (hlive.1 hc))]
          congr 2
          simp only [List.length_cons]
          omega

/-- After writes, a vertex is there exactly if a write has passed it. -/
theorem find_iff_touched {E : Curve G1 G2 GT} {env : Env} {t t' : Tree G1 G2 GT} (hroot : t.root = none)
    {F L : ℕ} {hist : List (Str × ℤ)} {s s' : State} (hids : ValidIds t.id2Path F L hist)
    (h : t.puts E env hist s = some (t', s')) (q : List ℕ) (v u : Sparse.Vertex Data) (hv : t'.root = some v)
    (hu : Sparse.find q v = some u) : touched (byPath t.id2Path hist) q := by
  induction hist using List.reverseRecOn generalizing t' s' v u with
  | nil =>
    rw [vputs_nil, Option.some.injEq, Prod.mk.injEq] at h
    rw [← h.1, hroot] at hv
    simp at hv
  | append_singleton hist e ih =>
    rw [vputs_concat] at h
    obtain ⟨⟨t1, s1⟩, h1, h2⟩ := Option.bind_eq_some_iff.1 h
    obtain ⟨p, hp, -, -⟩ := hids e (by simp)
    have hb : byPath t.id2Path (hist ++ [e]) = byPath t.id2Path hist ++ [(p, e.2)] := by
      simp [byPath, hp]
    rw [hb]
    have hid : t1.id2Path = t.id2Path := by
      rw [vputs_sparse] at h1
      obtain ⟨⟨ts, s2⟩, h3, h4⟩ := Option.map_eq_some_iff.1 h1
      simp only [Prod.mk.injEq] at h4
      rw [← h4.1]
    dsimp only at h2
    unfold Tree.put at h2
    obtain ⟨⟨t2, s2⟩, h3, h4⟩ := obind_elim h2
    obtain ⟨path, root', hp', hroot', rfl⟩ := put_some h3
    have : path = p := by
      have : t1.id2Path e.1 = some path := hp'
      rw [hid, hp] at this
      exact (Option.some.inj this).symm
    subst this
    simp only [Option.pure_def, Option.some.injEq, Prod.mk.injEq] at h4
    rw [← h4.1] at hv
    simp only [Option.some.injEq] at hv
    subst hv
    by_cases hc : q <+: path
    · exact ⟨(path, e.2), by simp, hc⟩
    · have hoff := find_putAt_off hroot' q hc
      rw [hu] at hoff
      have hne : q ≠ [] := by rintro rfl; exact hc List.nil_prefix
      have e0 : (t1.sparse E env).root = t1.root := rfl
      rw [e0] at hoff
      cases hrt : t1.root with
      | none => rw [hrt, Option.getD_none, find_fresh _ _ hne] at hoff; simp at hoff
      | some w =>
        rw [hrt, Option.getD_some] at hoff
        cases hfw : Sparse.find q w with
        | none => rw [hfw] at hoff; simp at hoff
        | some u' =>
          obtain ⟨e', he', hpre⟩ := ih (fun e he => hids e (by simp [he])) h1 w u' hrt hfw
          exact ⟨e', by simp [he'], hpre⟩

/-- One more write: which vertices keep their blinding factor, and what the others get. -/
theorem put_blinding {E : Curve G1 G2 GT} (hE : E.Lawful) {env : Env} (henv : env.Lawful) {α : Zr} {F : ℕ}
    (hF : F + 2 ≤ 65536) {t t1 t2 : Tree G1 G2 GT} (hPP : t.PP = newPublicParams E α (F + 2))
    (hfan : t.fanOut = F) (hroot : t.root = none) {L : ℕ} (hL : 1 ≤ L) {hist : List (Str × ℤ)} {e : Str × ℤ}
    {s s1 s2 : State} (hids : ValidIds t.id2Path F L (hist ++ [e]))
    (h1 : t.puts E env hist s = some (t1, s1)) (h2 : t1.put E env e.1 e.2 s1 = some (t2, s2)) (p : List ℕ)
    (hp : t.id2Path e.1 = some p) :
    s2.tick = s1.tick + L ∧
    (∀ q, ¬ q <+: p → s2.db (keyOf q) = s1.db (keyOf q)) ∧
    (∀ q, q <+: p → q.length < L → ∃ x : Vertex G1, load E s2.db (keyOf q) = some x ∧
      (touched (byPath t.id2Path hist) q →
        ∃ x0, load E s1.db (keyOf q) = some x0 ∧ x.blindingFactor = x0.blindingFactor) ∧
      (¬ touched (byPath t.id2Path hist) q → x.blindingFactor = env.rand (s1.tick + (L - 1 - q.length)))) := by
  have hids1 : ValidIds t.id2Path F L hist := fun e he => hids e (by simp [he])
  obtain ⟨p', hp', hpL, -⟩ := hids e (by simp)
  rw [hp, Option.some.injEq] at hp'
  subst hp'
  have hh1 := h1
  rw [vputs_sparse] at hh1
  obtain ⟨⟨ts, s3⟩, h3, h4⟩ := Option.map_eq_some_iff.1 hh1
  simp only [Prod.mk.injEq] at h4
  obtain ⟨h4, rfl⟩ := h4
  have hk := keysOk_puts (t0 := t.sparse E env) hroot _ _ _ h3
  have hrt : t1.root = ts.root := by rw [← h4]
  have hid : t1.id2Path = t.id2Path := by rw [← h4]
  unfold Tree.put at h2
  obtain ⟨⟨t3, s4⟩, h5, h6⟩ := obind_elim h2
  simp only [Option.pure_def, Option.some.injEq, Prod.mk.injEq] at h6
  obtain ⟨-, rfl⟩ := h6
  obtain ⟨path, root', hp'', hput, -⟩ := put_some h5
  have : path = p := by
    have : t1.id2Path e.1 = some path := hp''
    rw [hid, hp] at this
    exact (Option.some.inj this).symm
  subst this
  have hput' : putAt t1.fanOut (updateInnerVertex E t1.PP env) (some (.amount e.2)) path (keyOf [])
      (ts.root.getD (.mk [] none [])) s3 = some (root', s4) := by
    rw [← hrt]; exact hput
  obtain ⟨b1, b2, b3⟩ := putAt_blinding hE henv hput' (by simpa using hk)
  have hlive : ∀ q, q.length < L → (Live (ts.root.getD (.mk [] none [])) q ↔ touched (byPath t.id2Path hist) q) := by
    intro q hqL
    obtain ⟨t1', s1', g1, -, g2, g3, -⟩ := puts_good hE henv α F hF t hPP hfan hroot L hL hist s hids1
    rw [h1, Option.some.injEq, Prod.mk.injEq] at g1
    obtain ⟨rfl, rfl⟩ := g1
    constructor
    · rintro ⟨u, hu, hd⟩
      by_cases hhe : hist = []
      · have := g2 hhe
        rw [hrt] at this
        rw [this, Option.getD_none] at hu
        cases q with
        | nil => rw [find_nil, Option.some.injEq] at hu; rw [← hu] at hd; exact absurd rfl hd
        | cons a b => rw [find_fresh _ _ (by simp)] at hu; simp at hu
      · obtain ⟨v, hv, -⟩ := g3 hhe
        rw [← hrt, hv, Option.getD_some] at hu
        exact find_iff_touched hroot hids1 h1 q v u hv hu
    · intro htou
      obtain ⟨v, u, hv, hu⟩ := find_touched hroot hids1 h1 q htou
      have hhe : hist ≠ [] := by
        rintro rfl
        obtain ⟨e, he, -⟩ := htou
        simp [byPath] at he
      obtain ⟨v', hv', hg⟩ := g3 hhe
      rw [hv, Option.some.injEq] at hv'
      subst hv'
      have hgu := hg.find q (by omega) u hu
      obtain ⟨h, hh⟩ : ∃ h, L - q.length = h + 1 := ⟨L - q.length - 1, by omega⟩
      rw [hh] at hgu
      refine ⟨u, by rw [← hrt, hv, Option.getD_some]; exact hu, ?_⟩
      rw [hgu.2.1]
      simp
  refine ⟨by rw [b1, hpL], ?_, ?_⟩
  · intro q hq
    apply b2
    intro r hr _ hc
    rw [List.nil_append] at hc
    rw [keyOf_injective hc] at hq
    exact hq hr
  · intro q hq hqL
    obtain ⟨x, hx1, hx2, hx3⟩ := b3 q hq (by omega)
    rw [List.nil_append] at hx1 hx2
    rw [hpL] at hx3
    exact ⟨x, hx1, fun ht => hx2 ((hlive q hqL).2 ht), fun ht => hx3 (fun hc => ht ((hlive q hqL).1 hc))⟩

end PoL.Verkle
