import Verif.Proofs.SameRoot
import Verif.Proofs.PolToy
import Verif.Props.Pol
import Verif.Props.PointProofs
import Verif.Spec.Binding

/-!
# C98: the root determines the amounts
-/

set_option linter.unusedSectionVars false

namespace PoL.Props
open Spec Verkle Pol

variable {G1 G2 GT : Type} [AddCommGroup G1] [Module Zr G1] [AddCommGroup G2] [Module Zr G2]
  [AddCommGroup GT] [Module Zr GT] [DecidableEq G1] [DecidableEq GT]

/-- C98, as far as it holds: two sets with the same parameters and the same result of `Root` have passed the same
vertices, hold the same sum below each vertex above the leaves, and the same amount for each path whose vertex over the
leaves has been written below at most once — or their stores exhibit a collision of the hash, a digest that is zero, or
two openings of one commitment. Missing: the amounts below a vertex over the leaves that is written below more than
once, which the root does not determine (`C98_violated`). -/
theorem C98_root_determines_sums_partial {E : Curve G1 G2 GT} (hE : E.Lawful) {env₁ env₂ : Env} (henv₁ : env₁.Lawful)
    (henv₂ : env₂.Lawful) {α : Zr} {F L : ℕ} {ls₁ ls₂ ls₁' ls₂' : LiabilitySet G1 G2 GT} (h₁ : NewSet E α F L ls₁)
    (h₂ : NewSet E α F L ls₂) (hist₁ hist₂ : List (Str × ℤ)) (hne₁ : hist₁ ≠ []) (hne₂ : hist₂ ≠ [])
    (hids₁ : ValidIds ls₁.tree.id2Path F L hist₁) (hids₂ : ValidIds ls₂.tree.id2Path F L hist₂)
    (hr₁ : ls₁.sets E env₁ hist₁ = some ls₁') (hr₂ : ls₂.sets E env₂ hist₂ = some ls₂')
    (ht₁ : totalAmount (byPath ls₁.tree.id2Path hist₁) < 2 ^ 63) (ht₂ : totalAmount (byPath ls₂.tree.id2Path hist₂) < 2 ^ 63)
    (hroot : (ls₁'.root E).map Prod.fst = (ls₂'.root E).map Prod.fst) :
    Broken E α F (byPath ls₁.tree.id2Path hist₁) (byPath ls₂.tree.id2Path hist₂) ls₁'.s.db ls₂'.s.db ∨
      (∀ q, q.length < L →
        (touched (byPath ls₁.tree.id2Path hist₁) q ↔ touched (byPath ls₂.tree.id2Path hist₂) q) ∧
        amountBelow (byPath ls₁.tree.id2Path hist₁) q = amountBelow (byPath ls₂.tree.id2Path hist₂) q) ∧
      ∀ p, p.length = L → writesBelow (byPath ls₁.tree.id2Path hist₁) p.dropLast ≤ 1 →
        writesBelow (byPath ls₂.tree.id2Path hist₂) p.dropLast ≤ 1 →
        latest (byPath ls₁.tree.id2Path hist₁) p = latest (byPath ls₂.tree.id2Path hist₂) p := by
  have hL := h₁.pp.depth
  have pos : ∀ (t : Tree G1 G2 GT) (hist : List (Str × ℤ)), (∀ e ∈ hist, 0 ≤ e.2) → ∀ e ∈ byPath t.id2Path hist, 0 ≤ e.2 := by
    intro t hist hn e he
    simp only [byPath, List.mem_map] at he
    obtain ⟨e', he', rfl⟩ := he
    exact hn e' he'
  obtain ⟨x₁, hx₁, hroot₁⟩ := C46_first_call_partial hE henv₁ h₁ hist₁ hne₁ hids₁ hr₁
  obtain ⟨x₂, hx₂, hroot₂⟩ := C46_first_call_partial hE henv₂ h₂ hist₂ hne₂ hids₂ hr₂
  rw [hroot₁, hroot₂] at hroot
  simp only [Option.map_some, Option.some.injEq, Prod.mk.injEq] at hroot
  obtain ⟨hn₁, t₁, s₁, hp₁, rfl⟩ := (sets_iff E env₁ hist₁ ls₁ ls₁').1 hr₁
  obtain ⟨hn₂, t₂, s₂, hp₂, rfl⟩ := (sets_iff E env₂ hist₂ ls₂ ls₂').1 hr₂
  have hn₁ := pos ls₁.tree hist₁ hn₁
  have hn₂ := pos ls₂.tree hist₂ hn₂
  have run₁ : Run E env₁ α F L ls₁.tree hist₁ s₁.db := ⟨hids₁, h₁.tree, _, _, _, hp₁, rfl⟩
  have run₂ : Run E env₂ α F L ls₂.tree hist₂ s₂.db := ⟨hids₂, h₂.tree, _, _, _, hp₂, rfl⟩
  have hload : ∃ x₁ x₂, load E s₁.db (keyOf []) = some x₁ ∧ load E s₂.db (keyOf []) = some x₂ ∧ x₁.V = x₂.V ∧ x₁.W = x₂.W := by
    obtain ⟨-, y₁, -, -, hy₁⟩ := root_data hE henv₁ h₁.tree (by omega) hist₁ hne₁ hids₁ hp₁
    obtain ⟨-, y₂, -, -, hy₂⟩ := root_data hE henv₂ h₂.tree (by omega) hist₂ hne₂ hids₂ hp₂
    have i₁ : y₁ = x₁ := Option.some.inj ((load_fromBytes hy₁).symm.trans hx₁)
    have i₂ : y₂ = x₂ := Option.some.inj ((load_fromBytes hy₂).symm.trans hx₂)
    exact ⟨y₁, y₂, hy₁, hy₂, by rw [i₁, i₂]; exact hroot.1, by rw [i₁, i₂]; exact hroot.2⟩
  by_cases hb : Broken E α F (byPath ls₁.tree.id2Path hist₁) (byPath ls₂.tree.id2Path hist₂) s₁.db s₂.db
  · exact .inl hb
  refine .inr ⟨fun q hq => ?_, fun p hp hw₁ hw₂ => ?_⟩
  · refine ⟨(same_down hE henv₁ henv₂ run₁ run₂ hne₁ hne₂ hb hload q hq).1, ?_⟩
    exact intToZr_inj (amountBelow_nonneg hn₁ q) (amountBelow_nonneg hn₂ q)
      (lt_of_le_of_lt (amountBelow_le_total hn₁ q) ht₁) (lt_of_le_of_lt (amountBelow_le_total hn₂ q) ht₂)
      (same_amounts hE henv₁ henv₂ run₁ run₂ hL hne₁ hne₂ hb hload q hq)
  · have a₁ := amountBelow_self hids₁ p hp
    have a₂ := amountBelow_self hids₂ p hp
    obtain ⟨q, j, rfl⟩ : ∃ q j, p = q ++ [j] :=
      ⟨p.dropLast, p.getLast (by rintro rfl; simp at hp; omega), (List.dropLast_append_getLast _).symm⟩
    rw [List.dropLast_concat] at hw₁ hw₂
    rw [List.length_append, List.length_singleton] at hp
    have hd := same_down hE henv₁ henv₂ run₁ run₂ hne₁ hne₂ hb hload q (by omega)
    by_cases ht : touched (byPath ls₁.tree.id2Path hist₁) q ∧ j < F
    · obtain ⟨y₁, y₂, hy₁, hy₂, hV, -⟩ := hd.2 ht.1
      have := same_leaf hE henv₁ henv₂ run₁ run₂ (fun hc => hb (.inr (.inr hc))) q hp ht.1 (hd.1.1 ht.1)
        (by rw [deviation_one _ _ _ hw₁, Polynomial.eval_zero]) (by rw [deviation_one _ _ _ hw₂, Polynomial.eval_zero])
        hy₁ hy₂ hV j ht.2
      rw [← a₁, ← a₂] at this ⊢
      exact intToZr_inj (amountBelow_nonneg hn₁ _) (amountBelow_nonneg hn₂ _)
        (lt_of_le_of_lt (amountBelow_le_total hn₁ _) ht₁) (lt_of_le_of_lt (amountBelow_le_total hn₂ _) ht₂) this
    · have no₁ : ¬ touched (byPath ls₁.tree.id2Path hist₁) (q ++ [j]) :=
        fun h => ht ⟨touched_append h, touched_lt hids₁ h⟩
      have no₂ : ¬ touched (byPath ls₂.tree.id2Path hist₂) (q ++ [j]) :=
        fun h => ht ⟨hd.1.2 (touched_append h), touched_lt hids₂ h⟩
      rw [← a₁, ← a₂, amountBelow_untouched _ _ no₁, amountBelow_untouched _ _ no₂]

/-- C98: with encodings of points of one length, a collision found in the stores is one of two different inputs of the
hash. -/
theorem C98_hash_collision {E : Curve G1 G2 GT} {n : ℕ} (hE : FixedEncoding E n) {h₁ h₂ : List (List ℕ × ℤ)}
    {db₁ db₂ : Db} (h : HashCollision E h₁ h₂ db₁ db₂) :
    ∃ q x₁ x₂ d, BothStore E h₁ h₂ db₁ db₂ q x₁ x₂ ∧ hashedAs E x₁ ≠ hashedAs E x₂ ∧ IsHashOf E (hashedAs E x₁) d ∧
      IsHashOf E (hashedAs E x₂) d := by
  obtain ⟨q, x₁, x₂, hs, hne, d, hd⟩ := h
  have hn := hE.pos
  refine ⟨q, x₁, x₂, d, hs, fun he => hne ?_, hd⟩
  unfold hashedAs at he
  obtain ⟨e1, e2⟩ := List.append_inj he (by rw [hE.len, hE.len])
  refine ⟨hE.inj e1, ?_⟩
  cases hw₁ : x₁.W with
  | none =>
    cases hw₂ : x₂.W with
    | none => rfl
    | some w₂ =>
      rw [hw₁, hw₂] at e2
      have := hE.len w₂
      rw [← show [] = E.g1Bytes w₂ from e2] at this
      simp at this
      omega
  | some w₁ =>
    cases hw₂ : x₂.W with
    | none =>
      rw [hw₁, hw₂] at e2
      have := hE.len w₁
      rw [show E.g1Bytes w₁ = [] from e2] at this
      simp at this
      omega
    | some w₂ =>
      rw [hw₁, hw₂] at e2
      rw [hE.inj e2]

/-- C98: two openings of one commitment give the trapdoor away as a root of a polynomial that everyone who knows the
two vertices can write down. -/
theorem C98_collision_reveals_trapdoor {E : Curve G1 G2 GT} (hg : E.genG1 ≠ 0) {α : Zr} {F : ℕ}
    {h₁ h₂ : List (List ℕ × ℤ)} {db₁ db₂ : Db} (h : CommitCollision E α F h₁ h₂ db₁ db₂) :
    ∃ q x₁ x₂ P, BothStore E h₁ h₂ db₁ db₂ q x₁ x₂ ∧
      (P = collisionPoly (valuesOf F x₁) (valuesOf F x₂) ∨ P = collisionPoly (digestsOf F x₁) (digestsOf F x₂)) ∧
      P ≠ 0 ∧ P.natDegree ≤ F + 2 ∧ P.eval α = 0 := by
  obtain ⟨q, x₁, x₂, hs, hc | hc⟩ := h
  · exact ⟨q, x₁, x₂, _, hs, .inl rfl,
      C04_commit_binding E hg α (F + 2) (by omega) _ _ (by simp [valuesOf]) (by simp [valuesOf]) hc.1 hc.2⟩
  · exact ⟨q, x₁, x₂, _, hs, .inr rfl,
      C04_commit_binding E hg α (F + 2) (by omega) _ _ (by simp [digestsOf]) (by simp [digestsOf]) hc.1 hc.2⟩

/-- C98 fails: with a fan-out above 3, for three identifiers whose paths differ in the last index only (0, 2 and 3) and
any positive amount `m`, two histories of writes that both start with the first identifier give the same `Root` for every
curve, every trapdoor and every drawing of blinding factors — and different amounts for the second identifier. -/
theorem C98_violated {E : Curve G1 G2 GT} (hE : E.Lawful) {env : Env} (henv : env.Lawful) {α : Zr} {F L : ℕ}
    {ls : LiabilitySet G1 G2 GT} (h : NewSet E α F L ls) (hF : 3 < F) (q : List ℕ) (hq : q.length + 1 = L)
    (hlt : ∀ x ∈ q, x < F) (a b c : Str) (ha : ls.tree.id2Path a = some (q ++ [0])) (hb : ls.tree.id2Path b = some (q ++ [2]))
    (hc : ls.tree.id2Path c = some (q ++ [3])) (m : ℤ) (hm : 0 < m) :
    ∃ ls₁ ls₂ ls₁' ls₂' V W, ls.sets E env [(a, m), (b, 4 * m), (c, 4 * m)] = some ls₁ ∧
      ls.sets E env [(a, m), (c, 7 * m), (b, m), (a, m), (a, m)] = some ls₂ ∧
      ls₁.root E = some (some (V, W), ls₁') ∧ ls₂.root E = some (some (V, W), ls₂') ∧
      ls₁.get E env b = some (some (4 * m)) ∧ ls₂.get E env b = some (some m) := by
  have hab : a ≠ b := by rintro rfl; rw [ha] at hb; simp at hb
  have hac : a ≠ c := by rintro rfl; rw [ha] at hc; simp at hc
  have hbc : b ≠ c := by rintro rfl; rw [hb] at hc; simp at hc
  have va : ∃ p, ls.tree.id2Path a = some p ∧ p.length = L ∧ ∀ x ∈ p, x < F :=
    ⟨_, ha, by simp [hq], by intro x hx; rcases List.mem_append.1 hx with hx | hx; exact hlt x hx; simp at hx; omega⟩
  have vb : ∃ p, ls.tree.id2Path b = some p ∧ p.length = L ∧ ∀ x ∈ p, x < F :=
    ⟨_, hb, by simp [hq], by intro x hx; rcases List.mem_append.1 hx with hx | hx; exact hlt x hx; simp at hx; omega⟩
  have vc : ∃ p, ls.tree.id2Path c = some p ∧ p.length = L ∧ ∀ x ∈ p, x < F :=
    ⟨_, hc, by simp [hq], by intro x hx; rcases List.mem_append.1 hx with hx | hx; exact hlt x hx; simp at hx; omega⟩
  have hids₁ : ValidIds ls.tree.id2Path F L [(a, m), (b, 4 * m), (c, 4 * m)] := by
    intro e he
    simp only [List.mem_cons, List.not_mem_nil, or_false] at he
    rcases he with rfl | rfl | rfl
    exacts [va, vb, vc]
  have hids₂ : ValidIds ls.tree.id2Path F L [(a, m), (c, 7 * m), (b, m), (a, m), (a, m)] := by
    intro e he
    simp only [List.mem_cons, List.not_mem_nil, or_false] at he
    rcases he with rfl | rfl | rfl | rfl | rfl
    exacts [va, vc, vb, va, va]
  obtain ⟨t₁, s₁, hp₁⟩ := C39_writes_return hE henv h.tree (by omega : 1 ≤ L) _ ls.s hids₁
  obtain ⟨t₂, s₂, hp₂⟩ := C39_writes_return hE henv h.tree (by omega : 1 ≤ L) _ ls.s hids₂
  have hr₁ := (sets_iff E env _ ls { ls with tree := t₁, s := s₁ }).2
    ⟨by intro e he; simp only [List.mem_cons, List.not_mem_nil, or_false] at he
        rcases he with rfl | rfl | rfl <;> dsimp only <;> omega, t₁, s₁, hp₁, rfl⟩
  have hr₂ := (sets_iff E env _ ls { ls with tree := t₂, s := s₂ }).2
    ⟨by intro e he; simp only [List.mem_cons, List.not_mem_nil, or_false] at he
        rcases he with rfl | rfl | rfl | rfl | rfl <;> dsimp only <;> omega, t₂, s₂, hp₂, rfl⟩
  have b₁ : byPath ls.tree.id2Path [(a, m), (b, 4 * m), (c, 4 * m)] = oneHist q m := by simp [byPath, oneHist, ha, hb, hc]
  have b₂ : byPath ls.tree.id2Path [(a, m), (c, 7 * m), (b, m), (a, m), (a, m)] = otherHist q m := by
    simp [byPath, otherHist, ha, hb, hc]
  have run₁ : Run E env α F L ls.tree _ s₁.db := ⟨hids₁, h.tree, _, _, _, hp₁, rfl⟩
  have run₂ : Run E env α F L ls.tree _ s₂.db := ⟨hids₂, h.tree, _, _, _, hp₂, rfl⟩
  have all₁ : AllBelow (byPath ls.tree.id2Path [(a, m), (b, 4 * m), (c, 4 * m)]) q := by
    rw [b₁]; exact ⟨by simp [oneHist], by simp [oneHist]⟩
  have all₂ : AllBelow (byPath ls.tree.id2Path [(a, m), (c, 7 * m), (b, m), (a, m), (a, m)]) q := by
    rw [b₂]; exact ⟨by simp [otherHist], by simp [otherHist]⟩
  have hbf : ∀ r, r <+: q → ∀ x₁ x₂, load E s₁.db (keyOf r) = some x₁ → load E s₂.db (keyOf r) = some x₂ →
      x₁.blindingFactor = x₂.blindingFactor := by
    intro r hr x₁ x₂ hx₁ hx₂
    obtain ⟨t0, s0, h0, h01⟩ := puts_split (l₁ := [(a, m)]) (l₂ := [(b, 4 * m), (c, 4 * m)]) hp₁
    obtain ⟨t0', s0', h0', h02⟩ := puts_split (l₁ := [(a, m)]) (l₂ := [(c, 7 * m), (b, m), (a, m), (a, m)]) hp₂
    rw [h0, Option.some.injEq, Prod.mk.injEq] at h0'
    obtain ⟨rfl, rfl⟩ := h0'
    have htou : touched (byPath ls.tree.id2Path [(a, m)]) r :=
      ⟨(q ++ [0], m), by simp [byPath, ha], hr.trans (List.prefix_append _ _)⟩
    have hrL : r.length < L := by have := hr.length_le; omega
    obtain ⟨y, y₁, hy, hy₁, e₁⟩ := C41_blinding_factor_kept hE henv h.tree (by omega) _ _ hids₁ h0 h01 r hrL htou
    obtain ⟨y', y₂, hy', hy₂, e₂⟩ := C41_blinding_factor_kept hE henv h.tree (by omega) _ _ hids₂ h0 h02 r hrL htou
    rw [hy, Option.some.injEq] at hy'
    rw [load_fromBytes hx₁, Option.some.injEq] at hy₁
    rw [load_fromBytes hx₂, Option.some.injEq] at hy₂
    rw [hy₁, hy₂, ← e₁, ← e₂, hy']
  have hleaf : ∃ x₁ x₂, load E s₁.db (keyOf q) = some x₁ ∧ load E s₂.db (keyOf q) = some x₂ ∧ x₁.V = x₂.V ∧ x₁.W = x₂.W := by
    obtain ⟨bf₁, e₁⟩ := run₁.leaf hE henv q hq ((all₁.touched_iff le_rfl).2 List.prefix_rfl)
    obtain ⟨bf₂, e₂⟩ := run₂.leaf hE henv q hq ((all₂.touched_iff le_rfl).2 List.prefix_rfl)
    have hbq := hbf q List.prefix_rfl _ _ e₁ e₂
    change bf₁ = bf₂ at hbq
    subst hbq
    refine ⟨_, _, e₁, e₂, ?_, rfl⟩
    rw [b₁, b₂]
    exact same_leaves E α hF q m bf₁
  obtain ⟨x₁, x₂, hx₁, hx₂, hV, hW⟩ := same_up hE henv henv run₁ run₂ q hq all₁ all₂
    (by rw [b₁, b₂, (oneHist_amounts (F := F) q m).1, (otherHist_amounts (F := F) q m).1]) hbf hleaf q.length []
    List.nil_prefix (by simp)
  obtain ⟨y₁, hy₁, ho₁⟩ := C46_first_call_partial hE henv h _ (by simp) hids₁ hr₁
  obtain ⟨y₂, hy₂, ho₂⟩ := C46_first_call_partial hE henv h _ (by simp) hids₂ hr₂
  have i₁ : y₁ = x₁ := Option.some.inj (hy₁.symm.trans (load_fromBytes hx₁))
  have i₂ : y₂ = x₂ := Option.some.inj (hy₂.symm.trans (load_fromBytes hx₂))
  rw [i₁] at ho₁
  rw [i₂, ← hV, ← hW] at ho₂
  have inj : ∀ e ∈ [a, b, c], ls.tree.id2Path e = ls.tree.id2Path b → e = b := by
    intro e he hp
    simp only [List.mem_cons, List.not_mem_nil, or_false] at he
    rcases he with rfl | rfl | rfl
    · rw [ha, hb] at hp; simp at hp
    · rfl
    · rw [hc, hb] at hp; simp at hp
  have g₁ := C43_get_latest hE henv h _ hids₁ hr₁ b _ hb (by simp [hq]) (fun e he => inj e.1 (by
    simp only [List.mem_cons, List.not_mem_nil, or_false] at he
    rcases he with rfl | rfl | rfl <;> simp))
  have g₂ := C43_get_latest hE henv h _ hids₂ hr₂ b _ hb (by simp [hq]) (fun e he => inj e.1 (by
    simp only [List.mem_cons, List.not_mem_nil, or_false] at he
    rcases he with rfl | rfl | rfl | rfl | rfl <;> simp))
  refine ⟨_, _, _, _, _, _, hr₁, hr₂, ho₁, ho₂, ?_, ?_⟩
  · rw [g₁]; simp [lastPut, hbc.symm]
  · rw [g₂]; simp [lastPut, hab]

/-- A new set of fan-out 7 exists. -/
theorem seven_set : ∃ ls : LiabilitySet Zr Zr Zr, NewSet toyCurve 2 7 3 ls ∧ ls.tree.id2Path = toyPath := by
  have hM : IsPadded (3 - 1) 2 := ⟨⟨1, by norm_num, by norm_num, by norm_num⟩, by norm_num, fun i _ h => by simpa using h⟩
  obtain ⟨pp, -, h⟩ := fits_of_parts toyCurve 2 7 3 3 (by norm_num) (by norm_num) (by norm_num) (by decide) 2 hM toyPath
  exact ⟨⟨newVerkleTree toyCurve 2 7 toyPath, pp, [], ⟨fun _ => [], 0⟩⟩,
    ⟨newTree_of_newVerkleTree toyCurve 2 7 (by decide) toyPath, h, rfl⟩, rfl⟩

/-- The hypotheses of `C98_violated` can be met. -/
example : ∃ ls ls₁ ls₂ ls₁' ls₂' : LiabilitySet Zr Zr Zr, ∃ V W,
    ls.sets toyCurve toyEnv [(['5', '6', '0'], 100), (['5', '6', '2'], 400), (['5', '6', '3'], 400)] = some ls₁ ∧
    ls.sets toyCurve toyEnv [(['5', '6', '0'], 100), (['5', '6', '3'], 700), (['5', '6', '2'], 100), (['5', '6', '0'], 100),
      (['5', '6', '0'], 100)] = some ls₂ ∧
    ls₁.root toyCurve = some (some (V, W), ls₁') ∧ ls₂.root toyCurve = some (some (V, W), ls₂') ∧
    ls₁.get toyCurve toyEnv ['5', '6', '2'] = some (some 400) ∧ ls₂.get toyCurve toyEnv ['5', '6', '2'] = some (some 100) := by
  obtain ⟨ls, h, hp⟩ := seven_set
  obtain ⟨ls₁, ls₂, ls₁', ls₂', V, W, hall⟩ := C98_violated toyCurve_lawful toyEnv_lawful h (by norm_num) [5, 6] rfl (by simp)
    ['5', '6', '0'] ['5', '6', '2'] ['5', '6', '3'] (by rw [hp]; decide) (by rw [hp]; decide) (by rw [hp]; decide) 100
    (by norm_num)
  exact ⟨ls, ls₁, ls₂, ls₁', ls₂', V, W, hall⟩

/-- So can those of the partial theorem, by two different histories: the two of `C98_violated`. -/
example : ∃ ls ls₁ ls₂ : LiabilitySet Zr Zr Zr, ∃ hist₁ hist₂ : List (Str × ℤ), NewSet toyCurve 2 7 3 ls ∧ hist₁ ≠ hist₂ ∧
    ValidIds ls.tree.id2Path 7 3 hist₁ ∧ ValidIds ls.tree.id2Path 7 3 hist₂ ∧
    ls.sets toyCurve toyEnv hist₁ = some ls₁ ∧ ls.sets toyCurve toyEnv hist₂ = some ls₂ ∧
    totalAmount (byPath ls.tree.id2Path hist₁) < 2 ^ 63 ∧ totalAmount (byPath ls.tree.id2Path hist₂) < 2 ^ 63 ∧
    (ls₁.root toyCurve).map Prod.fst = (ls₂.root toyCurve).map Prod.fst := by
  obtain ⟨ls, h, hp⟩ := seven_set
  obtain ⟨ls₁, ls₂, ls₁', ls₂', V, W, h1, h2, h3, h4, -⟩ :=
    C98_violated toyCurve_lawful toyEnv_lawful h (by norm_num) [5, 6] rfl (by simp)
    ['5', '6', '0'] ['5', '6', '2'] ['5', '6', '3'] (by rw [hp]; decide) (by rw [hp]; decide) (by rw [hp]; decide) 100
    (by norm_num)
  refine ⟨ls, ls₁, ls₂, _, _, h, by decide, ?_, ?_, h1, h2, by rw [hp]; decide, by rw [hp]; decide, by rw [h3, h4]; rfl⟩
  · rw [hp]
    intro e he
    exact ⟨_, rfl, by revert e; decide, by revert e; decide⟩
  · rw [hp]
    intro e he
    exact ⟨_, rfl, by revert e; decide, by revert e; decide⟩

end PoL.Props
