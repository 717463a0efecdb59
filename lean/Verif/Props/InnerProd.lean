import Verif.Proofs.InnerProd
import Verif.Spec.Toy
import Mathlib.Tactic.FinCases

/-!
# C09–C11: the inner-product argument (`bp/innerprod.go`)
-/

set_option linter.unusedSectionVars false

namespace PoL.Props

open BP

variable {G1 G2 GT : Type} [AddCommGroup G1] [Module Zr G1] [AddCommGroup G2] [Module Zr G2]
  [AddCommGroup GT] [Module Zr GT] [DecidableEq G1]

/-- **C09.** For vectors of length `2^k` and any generators the argument can be built and proved; the
statement is `P = Σ a_i G_i + Σ b_i H_i`, `C = <a,b>`; and the proof verifies unless one of its folding
challenges is zero. -/
theorem C09_inner_product_complete (E : Curve G1 G2 GT) (hE : E.Lawful) (pp : BP.PP G1) (k : ℕ)
    (a b : List Zr) (ha : a.length = 2 ^ k) (hb : b.length = 2 ^ k) (hG : pp.G.length = 2 ^ k)
    (hH : pp.H.length = 2 ^ k) :
    ∃ ipa π, newInnerProdArgument pp a b = some ipa ∧
      ipa.P = dot a pp.G + dot b pp.H ∧ ipa.C = dot a b ∧
      ipa.prove E = some π ∧ π.P = ipa.P ∧ π.C = ipa.C ∧
      ((∀ x ∈ ippChallenges E pp π, x ≠ 0) → π.verify E pp = some true) := by
  have hpos : 0 < 2 ^ k := by positivity
  have hipa : newInnerProdArgument pp a b
      = some { pp := pp, a := a, b := b, C := dot a b, P := dot a pp.G + dot b pp.H } := by
    rw [newInnerProdArgument, Vec.innerProd_eq (by omega), BP.commit_eq pp a b (by omega)
      (by intro h; rw [h] at ha; simp at ha; omega) (by omega) (by omega)]
    rfl
  obtain ⟨π, x, hπ, hP, hC, -, -, hv⟩ := prove_verify E hE pp a b (dot a b)
    (dot a pp.G + dot b pp.H) k ha hb hG hH
  refine ⟨_, π, hipa, rfl, rfl, hπ, hP, hC, fun hne => ?_⟩
  have := hv hne (dot a pp.G + dot b pp.H) (dot a b) rfl
  rw [← hP, ← hC] at this
  rw [this, Option.some_inj, decide_eq_true_eq]
  rw [hP, hC]
  module

/-- Challenges of the toy hash are never zero, so C09 gives accepted proofs. -/
theorem toy_roundChallenges (d : Bytes) : ∀ LRs : List Zr, ∀ x ∈ roundChallenges toyCurve d LRs, x ≠ 0
  | [], x, h => by simp [roundChallenges] at h
  | [_], x, h => by simp [roundChallenges] at h
  | L :: R :: t, x, h => by
    simp only [roundChallenges, List.mem_cons] at h
    rcases h with h | h
    · rw [h]
      have : randomOracle toyCurve L R d = toyDigest := rfl
      rw [this, toy_fe]
      exact toyChallenge_ne
    · exact toy_roundChallenges d t x h

theorem toy_ippChallenges (pp : BP.PP Zr) (π : InnerProductProof Zr) :
    ∀ x ∈ ippChallenges toyCurve pp π, x ≠ 0 := by
  intro x hx
  unfold ippChallenges at hx
  split at hx
  · exact toy_roundChallenges _ _ x hx
  · simp at hx

example : ∃ π : InnerProductProof Zr,
    π.verify toyCurve { digest := [], G := [1, 2, 3, 4], H := [5, 6, 7, 8], U := 9 } = some true := by
  obtain ⟨_, π, -, -, -, -, -, -, h⟩ := C09_inner_product_complete toyCurve toyCurve_lawful
    { digest := [], G := [1, 2, 3, 4], H := [5, 6, 7, 8], U := 9 } 2 [1, 0, 1, 1] [3, 2, 0, 1] rfl rfl rfl rfl
  exact ⟨π, h (toy_ippChallenges _ _)⟩

/-! ## C10 -/

theorem proveLoop_some_pow (E : Curve G1 G2 GT) (pp : BP.PP G1) :
    ∀ (n : ℕ) (a b : List Zr) (P : G1) (g h : List G1) (r : List G1 × Zr × Zr), g.length = n →
      a.length = n → b.length = n → h.length = n →
      proveLoop E pp a b P g h = some r → ∃ k, n = 2 ^ k := by
  intro n
  induction n using Nat.strong_induction_on with
  | _ n ih =>
  intro a b P g h r hg ha hb hh hr
  rw [proveLoop, if_neg (by omega)] at hr
  by_cases h1 : g.length = 1
  · exact ⟨0, by omega⟩
  rw [if_neg h1] at hr
  by_cases h0 : g.length = 0
  · rw [if_pos h0] at hr; simp at hr
  rw [if_neg h0] at hr
  dsimp only at hr
  by_cases hodd : n % 2 = 1
  · -- odd length: the slices do not match
    exfalso
    have hmis : (a.take (g.length / 2)).length ≠ (b.drop (g.length / 2)).length := by
      simp only [List.length_take, List.length_drop]; omega
    rw [sliceTo_eq (by omega), sliceFrom_eq (by omega), sliceTo_eq (by omega),
      sliceFrom_eq (by omega)] at hr
    simp only [Option.bind_eq_bind, Option.bind_some, Vec.innerProd_eq_none hmis, Option.bind_none] at hr
    simp at hr
  · split at hr
    · simp at hr
    · next aL aR bL bR L R heq =>
      split at hr
      · simp at hr
      · next np hnp =>
        have hgl := computeNextParams_g_length hnp
        have hhl : np.h.length = g.length / 2 := by
          obtain ⟨x, hx⟩ : ∃ x, fieldElementFromBytes (randomOracle E L R pp.digest) = some x := by
            cases hfe : fieldElementFromBytes (randomOracle E L R pp.digest) with
            | some x => exact ⟨x, rfl⟩
            | none => simp [computeNextParams, hfe] at hnp
          rw [computeNextParams_eq E L R pp g h P (n / 2) (by omega) (by omega) x hx] at hnp
          cases hnp
          rw [foldG_length (by omega)]; omega
        simp only [Option.bind_eq_bind, Option.bind_eq_some_iff] at hr
        obtain ⟨a', ha', b', hb', ⟨r', hr', -⟩⟩ := hr
        have hsl : aL.length = n / 2 ∧ aR.length = n / 2 ∧ bL.length = n / 2 ∧ bR.length = n / 2 := by
          rw [sliceTo_eq (by omega), sliceFrom_eq (by omega), sliceTo_eq (by omega),
            sliceFrom_eq (by omega)] at heq
          simp only [Option.bind_eq_bind, Option.bind_some, Option.bind_eq_some_iff, Option.pure_def,
            Option.some_inj, Prod.mk.injEq] at heq
          obtain ⟨_, _, _, _, _, _, _, _, _, _, _, _, _, _, _, _, _, _, _, _, h1, h2, h3, h4, _⟩ := heq
          subst h1 h2 h3 h4
          simp only [List.length_take, List.length_drop]
          omega
        rw [Vec.add_eq (by simp [hsl])] at ha' hb'
        cases ha'; cases hb'
        obtain ⟨k, hk⟩ := ih (n / 2) (by omega) _ _ _ _ _ r' (by omega) (by simp [hsl]) (by simp [hsl])
          (by omega) hr'
        exact ⟨k + 1, by rw [pow_succ]; omega⟩

/-- **C10.** With vectors and generators of one common length `n`, building and proving the argument
panics exactly when `n` is not a power of two. -/
theorem C10_prove_returns_iff_power_of_two (E : Curve G1 G2 GT) (hE : E.Lawful) (pp : BP.PP G1) (n : ℕ)
    (a b : List Zr) (ha : a.length = n) (hb : b.length = n) (hG : pp.G.length = n)
    (hH : pp.H.length = n) :
    (∃ π, (newInnerProdArgument pp a b >>= fun ipa => ipa.prove E) = some π) ↔ ∃ k, n = 2 ^ k := by
  constructor
  · rintro ⟨π, hπ⟩
    simp only [Option.bind_eq_bind, Option.bind_eq_some_iff] at hπ
    obtain ⟨ipa, hipa, hpr⟩ := hπ
    simp only [newInnerProdArgument, Option.bind_eq_bind, Option.bind_eq_some_iff, Option.pure_def,
      Option.some_inj] at hipa
    obtain ⟨C, -, P, -, rfl⟩ := hipa
    simp only [InnerProdArgument.prove, Option.bind_eq_bind, Option.bind_eq_some_iff] at hpr
    obtain ⟨⟨pp', P'⟩, -, ⟨r, hr, -⟩⟩ := hpr
    exact proveLoop_some_pow E pp' n a b P' pp.G pp.H r hG ha hb hH hr
  · rintro ⟨k, rfl⟩
    obtain ⟨ipa, π, h1, -, -, h2, -⟩ := C09_inner_product_complete E hE pp k a b ha hb hG hH
    exact ⟨π, by rw [h1]; exact h2⟩

/-- **C10**, size: for length `2^k` the proof holds `2k` group elements. -/
theorem C10_proof_length (E : Curve G1 G2 GT) (hE : E.Lawful) (pp : BP.PP G1) (k : ℕ)
    (a b : List Zr) (ha : a.length = 2 ^ k) (hb : b.length = 2 ^ k) (hG : pp.G.length = 2 ^ k)
    (hH : pp.H.length = 2 ^ k) (π : InnerProductProof G1)
    (hπ : (newInnerProdArgument pp a b >>= fun ipa => ipa.prove E) = some π) :
    π.LRs.length = 2 * k := by
  simp only [Option.bind_eq_bind, Option.bind_eq_some_iff] at hπ
  obtain ⟨ipa, hipa, hpr⟩ := hπ
  simp only [newInnerProdArgument, Option.bind_eq_bind, Option.bind_eq_some_iff, Option.pure_def,
    Option.some_inj] at hipa
  obtain ⟨C, -, P, -, rfl⟩ := hipa
  obtain ⟨π', x, h1, -, -, h2, -⟩ := prove_verify E hE pp a b C P k
    ha hb hG hH
  rw [h1] at hpr
  cases hpr
  exact h2

example : ¬ ∃ π, (newInnerProdArgument ({ digest := [], G := [1, 2, 3], H := [5, 6, 7], U := 9 } : BP.PP Zr)
    [1, 1, 1] [2, 2, 2] >>= fun ipa => ipa.prove toyCurve) = some π := by
  rw [C10_prove_returns_iff_power_of_two toyCurve toyCurve_lawful _ 3 _ _ rfl rfl rfl rfl]
  rintro ⟨k, hk⟩
  rcases k with _ | _ | k
  · simp at hk
  · simp at hk
  · rw [pow_succ, pow_succ] at hk; omega

/-! ## C11 -/

/-- **C11 is false of the code.** There is a public scalar `x` (a function of the parameters only) such
that any accepted proof, for any `P` and `C`, is also accepted, unchanged, for every other claimed inner
product `C'` once `P` is shifted by `x·(C-C')·U`. -/
theorem C11_violated (E : Curve G1 G2 GT) (hE : E.Lawful) (pp : BP.PP G1)
    (hGH : pp.H = [] ∨ pp.G.length ≤ pp.H.length) :
    ∃ x : Zr, ∀ (π : InnerProductProof G1) (C' : Zr), π.verify E pp = some true →
      InnerProductProof.verify E { π with P := π.P + (x * (π.C - C')) • pp.U, C := C' } pp = some true := by
  obtain ⟨x, hx⟩ := fieldElementFromBytes_isSome (hE.sha_len (instanceHashInput pp pp.U))
  refine ⟨x, fun π C' hπ => ?_⟩
  have hx1 : fieldElementFromBytes (E.sha256 (instanceHashInput pp π.P)) = some x := hx
  obtain ⟨d, hd⟩ := computeInstance_eq E pp π.P π.C hGH x hx1
  obtain ⟨d', hd'⟩ := computeInstance_eq E pp (π.P + (x * (π.C - C')) • pp.U) C' hGH x hx
  have hdd : d' = d := by
    have := instance_digest_indep E pp (P := π.P + (x * (π.C - C')) • pp.U) (P' := π.P) (c := C')
      (c' := π.C) rfl
    rw [hd, hd'] at this
    simpa using this
  subst hdd
  rw [InnerProductProof.verify, hd] at hπ
  rw [InnerProductProof.verify, hd']
  simp only [Option.bind_eq_bind, Option.bind_some] at hπ ⊢
  have : π.P + (x * (π.C - C')) • pp.U + (x * C') • pp.U = π.P + (x * π.C) • pp.U := by module
  rw [this]
  exact hπ

/-- A concrete instance: an accepted proof of `<a,b> = 6` that is also accepted for the claim `1000`. -/
theorem C11_violated_witness :
    ∃ (pp : BP.PP Zr) (π : InnerProductProof Zr) (P' : Zr), π.C = 6 ∧ π.verify toyCurve pp = some true ∧
      InnerProductProof.verify toyCurve { π with P := P', C := 1000 } pp = some true := by
  obtain ⟨ipa, π, -, -, hc, -, -, hC, h⟩ := C09_inner_product_complete toyCurve toyCurve_lawful
    { digest := [], G := [1, 2], H := [5, 6], U := 9 } 1 [1, 2] [2, 2] rfl rfl rfl rfl
  have hok := h (toy_ippChallenges _ _)
  obtain ⟨x, hx⟩ := C11_violated toyCurve toyCurve_lawful
    ({ digest := [], G := [1, 2], H := [5, 6], U := 9 } : BP.PP Zr) (Or.inr (by simp))
  refine ⟨_, π, _, ?_, hok, hx π 1000 hok⟩
  rw [hC, hc]
  simp only [dot_cons, dot_nil_left, smul_eq_mul]
  norm_num

/-- **C11**, the part that holds: for a fixed `P` an accepted proof fixes the claimed inner product
(first challenge and `U` non-zero).  Missing: `P` itself is not bound to `C`, see `C11_violated`. -/
theorem C11_fixed_P_partial (E : Curve G1 G2 GT) (pp : BP.PP G1) (hU : pp.U ≠ 0) (k : ℕ) (hG : pp.G.length = 2 ^ k)
    (hH : pp.H.length = 2 ^ k)
    (x : Zr) (π : InnerProductProof G1) (C' : Zr)
    (hx : fieldElementFromBytes (E.sha256 (instanceHashInput pp π.P)) = some x) (hx0 : x ≠ 0)
    (h₁ : π.verify E pp = some true)
    (h₂ : InnerProductProof.verify E { π with C := C' } pp = some true) : C' = π.C := by
  have hGH : pp.H = [] ∨ pp.G.length ≤ pp.H.length := Or.inr (by omega)
  obtain ⟨d, hd⟩ := computeInstance_eq E pp π.P π.C hGH x hx
  obtain ⟨d', hd'⟩ := computeInstance_eq E pp π.P C' hGH x hx
  have hdd : d' = d := by
    have := instance_digest_indep E pp (P := π.P) (P' := π.P) (c := C') (c' := π.C) rfl
    rw [hd, hd'] at this
    simpa using this
  subst hdd
  rw [InnerProductProof.verify, hd] at h₁
  rw [InnerProductProof.verify, hd'] at h₂
  simp only [Option.bind_eq_bind, Option.bind_some] at h₁ h₂
  -- the final comparison determines `P`
  have key : ∀ (k : ℕ) (q : BP.PP G1) (LRs : List G1) (P₁ P₂ : G1) (g h : List G1), g.length = 2 ^ k →
      h.length = 2 ^ k → verifyLoop E q P₁ g h LRs π.a π.b = some true →
      verifyLoop E q P₂ g h LRs π.a π.b = some true → P₁ = P₂ := by
    intro k
    induction k with
    | zero =>
      intro q LRs P₁ P₂ g h hg hh e₁ e₂
      obtain ⟨g0, rfl⟩ := List.length_eq_one_iff.1 hg
      obtain ⟨h0, rfl⟩ := List.length_eq_one_iff.1 hh
      rw [verifyLoop_one] at e₁ e₂
      simp only [Option.some_inj, decide_eq_true_eq] at e₁ e₂
      rw [← e₁, ← e₂]
    | succ k ih =>
      intro q LRs P₁ P₂ g h hg hh e₁ e₂
      rw [pow_succ, mul_comm] at hg hh
      have hpos : 0 < 2 ^ k := by positivity
      match LRs with
      | [] => unfold verifyLoop at e₁; rw [if_neg (by omega)] at e₁; simp at e₁
      | [_] => unfold verifyLoop at e₁; rw [if_neg (by omega)] at e₁; simp at e₁
      | L :: R :: t =>
        cases hfe : fieldElementFromBytes (randomOracle E L R q.digest) with
        | none =>
          unfold verifyLoop at e₁
          rw [if_neg (by omega)] at e₁
          simp [computeNextParams, hfe] at e₁
        | some y =>
          rw [verifyLoop_step E q _ L R g h t _ _ (2 ^ k) hpos hg hh y hfe] at e₁ e₂
          have := ih q t _ _ _ _ (foldG_length hg) (foldG_length hh) e₁ e₂
          have := add_right_cancel this
          exact add_left_cancel this
  have := key k _ _ _ _ _ _ hG hH h₁ h₂
  have h3 := add_left_cancel this
  rw [← sub_eq_zero, ← sub_smul, ← mul_sub] at h3
  rcases smul_eq_zero.1 h3 with h | h
  · rcases mul_eq_zero.1 h with h | h
    · exact absurd h hx0
    · exact (sub_eq_zero.1 h).symm
  · exact absurd h hU

example : ∃ (pp : BP.PP Zr) (π : InnerProductProof Zr) (x : Zr), pp.U ≠ 0 ∧ x ≠ 0 ∧
    fieldElementFromBytes (toyCurve.sha256 (instanceHashInput pp π.P)) = some x ∧
    π.verify toyCurve pp = some true := by
  obtain ⟨ipa, π, -, -, -, -, -, -, h⟩ := C09_inner_product_complete toyCurve toyCurve_lawful
    { digest := [], G := [1, 2], H := [5, 6], U := 1 } 1 [1, 2] [2, 2] rfl rfl rfl rfl
  exact ⟨_, π, _, one_ne_zero, toyChallenge_ne, toy_fe, h (toy_ippChallenges _ _)⟩

end PoL.Props
