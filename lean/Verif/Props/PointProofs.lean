import Verif.Proofs.PointProofs
import Verif.Spec.Toy
import Mathlib.Algebra.Polynomial.Eval.Defs
import Mathlib.Algebra.Polynomial.Degree.Lemmas
import Mathlib.Algebra.Polynomial.Coeff
import Mathlib.Algebra.Module.Torsion.Field

/-!
# C01–C08: the vector commitment (`pp/pointproofs.go`)

Throughout, `pp = newPublicParams E α N` are the parameters generated with trapdoor `α`.
-/

set_option linter.unusedSectionVars false

namespace PoL.Props

open PP

variable {G1 G2 GT : Type} [AddCommGroup G1] [Module Zr G1] [AddCommGroup G2] [Module Zr G2]
  [AddCommGroup GT] [Module Zr GT] [DecidableEq G1] [DecidableEq GT]

/-! ## C01 -/

/-- **C01.** Committing and opening succeed, the opened value is `m[i]`, and the opening verifies. -/
theorem C01_opening_verifies (E : Curve G1 G2 GT) (hE : E.Lawful) (α : Zr) (N : ℕ) (hN : 2 ≤ N)
    (m : List Zr) (hm : m.length = N) (i : ℕ) (hi : i < N) :
    ∃ C mi π, commit (newPublicParams E α N) m = some C ∧
      openAt (newPublicParams E α N) i m = some (mi, π) ∧ m[i]? = some mi ∧
      verify E (newPublicParams E α N) mi π C i = some true := by
  refine ⟨_, _, _, commit_eq E α N m hm (by omega), openAt_eq E α N m hm hN i hi, ?_, ?_⟩
  · simp [List.getD, hm, hi]
  · rw [verify_eq E hE α N _ _ _ i hi, Option.some_inj, decide_eq_true_eq]
    congr 1
    rw [← add_smul, openExpo_add α N i m hm hi, mul_smul]

example := C01_opening_verifies toyCurve toyCurve_lawful 5 3 (by norm_num) [7, 8, 9] rfl 1 (by norm_num)

/-! ## C02 -/

/-- **C02.** Exactly one proof is accepted for a commitment, an index and a value. -/
theorem C02_verify_iff (E : Curve G1 G2 GT) (hE : E.Lawful) (hn : E.NonDegenerate) (α : Zr) (N : ℕ)
    (C π : G1) (mi : Zr) (i : ℕ) (hi : i < N) :
    verify E (newPublicParams E α N) mi π C i = some true
      ↔ π = α ^ (N - i) • C - (mi * α ^ (N + 1)) • E.genG1 := by
  rw [verify_eq E hE α N _ _ _ i hi, Option.some_inj, decide_eq_true_eq]
  constructor
  · intro h
    have h0 : E.pair (α ^ (N - i) • C - (π + (mi * α ^ (N + 1)) • E.genG1)) E.genG2 = 0 := by
      rw [map_sub, LinearMap.sub_apply, h, sub_self]
    have := hn _ h0
    rw [sub_eq_zero] at this
    rw [this]; abel
  · intro h
    rw [h]; congr 1; congr 1; abel

/-- **C02**, panics: indices from `N` on are out of range, and no others. -/
theorem C02_verify_panics_iff (E : Curve G1 G2 GT) (hE : E.Lawful) (α : Zr) (N : ℕ)
    (C π : G1) (mi : Zr) (i : ℕ) :
    verify E (newPublicParams E α N) mi π C i = none ↔ N ≤ i := by
  constructor
  · intro h
    by_contra hc
    rw [verify_eq E hE α N _ _ _ i (by omega)] at h
    simp at h
  · intro h
    rw [verify, if_pos (by simp; omega)]

/-- **C02**, honest proofs are rejected for any other value. -/
theorem C02_wrong_value_rejected (E : Curve G1 G2 GT) (hE : E.Lawful) (hn : E.NonDegenerate) (α : Zr)
    (hα : α ≠ 0) (hg : E.genG1 ≠ 0) (N : ℕ) (hN : 2 ≤ N) (m : List Zr) (hm : m.length = N) (i : ℕ)
    (hi : i < N) (C π : G1) (mi mi' : Zr) (hC : commit (newPublicParams E α N) m = some C)
    (hπ : openAt (newPublicParams E α N) i m = some (mi, π)) (hne : mi' ≠ mi) :
    verify E (newPublicParams E α N) mi' π C i = some false := by
  obtain ⟨C', mi0, π', h1, h2, -, h4⟩ := C01_opening_verifies E hE α N hN m hm i hi
  rw [hC] at h1; rw [hπ] at h2
  cases h1; cases h2
  have hok := (C02_verify_iff E hE hn α N C π mi i hi).1 h4
  rw [verify_eq E hE α N _ _ _ i hi]
  congr 1
  by_contra hc
  rw [Bool.not_eq_false, ← Option.some_inj, ← verify_eq E hE α N _ _ _ i hi,
    C02_verify_iff E hE hn α N C π mi' i hi, hok] at hc
  have : ((mi' - mi) * α ^ (N + 1)) • E.genG1 = 0 := by
    rw [sub_mul, sub_smul, sub_eq_zero]
    have := sub_right_injective hc
    exact this.symm
  rcases smul_eq_zero.1 this with h | h
  · rcases mul_eq_zero.1 h with h | h
    · exact hne (sub_eq_zero.1 h)
    · exact pow_ne_zero _ hα h
  · exact hg h

example : ∃ C mi π, commit (newPublicParams toyCurve 5 3) [7, 8, 9] = some C ∧
    openAt (newPublicParams toyCurve 5 3) 1 [7, 8, 9] = some (mi, π) :=
  ⟨_, _, _, commit_eq toyCurve 5 3 [7, 8, 9] rfl (by norm_num),
    openAt_eq toyCurve 5 3 [7, 8, 9] rfl (by norm_num) 1 (by norm_num)⟩

/-! ## C03 -/

/-- **C03.** Two accepted openings of one commitment at one index with different values yield the
withheld power `α^(N+1)·g1`. -/
theorem C03_position_binding (E : Curve G1 G2 GT) (hE : E.Lawful) (hn : E.NonDegenerate) (α : Zr)
    (N : ℕ) (C π₁ π₂ : G1) (m₁ m₂ : Zr) (i : ℕ)
    (h₁ : verify E (newPublicParams E α N) m₁ π₁ C i = some true)
    (h₂ : verify E (newPublicParams E α N) m₂ π₂ C i = some true) (hne : m₁ ≠ m₂) :
    (m₂ - m₁)⁻¹ • (π₁ - π₂) = α ^ (N + 1) • E.genG1 := by
  have hi : i < N := by
    by_contra hc
    rw [(C02_verify_panics_iff E hE α N C π₁ m₁ i).2 (by omega)] at h₁
    simp at h₁
  rw [C02_verify_iff E hE hn α N _ _ _ i hi] at h₁ h₂
  have : π₁ - π₂ = (m₂ - m₁) • (α ^ (N + 1) • E.genG1) := by rw [h₁, h₂]; module
  rw [this, smul_smul, inv_mul_cancel₀ (sub_ne_zero.2 hne.symm), one_smul]

/-- With the trapdoor both openings exist, so the hypotheses of C03 can be met. -/
example : ∃ π₁ π₂, verify toyCurve (newPublicParams toyCurve 5 3) 1 π₁ 4 0 = some true ∧
    verify toyCurve (newPublicParams toyCurve 5 3) 2 π₂ 4 0 = some true :=
  ⟨_, _, (C02_verify_iff _ toyCurve_lawful toyCurve_nonDegenerate 5 3 4 _ 1 0 (by norm_num)).2 rfl,
    (C02_verify_iff _ toyCurve_lawful toyCurve_nonDegenerate 5 3 4 _ 2 0 (by norm_num)).2 rfl⟩

/-- The bases published by `NewPublicParams`: `α^1..α^N`, `α^0`, `α^(N+2)..α^(2N)`, i.e. all powers up to
`2N` except `N+1`. -/
theorem C03_published_powers (E : Curve G1 G2 GT) (α : Zr) (N : ℕ) (hN : 0 < N) :
    (newPublicParams E α N).G1s.length = 2 * N ∧ ∀ j < 2 * N,
      (newPublicParams E α N).G1s[j]? = some (α ^ (if j = N then 0 else j + 1) • E.genG1) := by
  refine ⟨new_G1s_length E α N hN, fun j hj => ?_⟩
  split
  · next h => subst h; rw [new_G1s_N, pow_zero, one_smul]
  · next h => exact new_G1s_ne E α N (Ne.symm h) hj

/-! ## C04 -/

/-- **C04**, additivity. -/
theorem C04_commit_add (E : Curve G1 G2 GT) (α : Zr) (N : ℕ) (hN : 0 < N) (m m' : List Zr)
    (hm : m.length = N) (hm' : m'.length = N) :
    ∃ C C', commit (newPublicParams E α N) m = some C ∧ commit (newPublicParams E α N) m' = some C' ∧
      commit (newPublicParams E α N) (List.zipWith (· + ·) m m') = some (C + C') := by
  refine ⟨_, _, commit_eq_dot E α N m hm hN, commit_eq_dot E α N m' hm' hN, ?_⟩
  rw [commit_eq_dot E α N _ (by simp [hm, hm']) hN, dot_add_left _ _ _ (by rw [hm, hm'])]

/-- **C04**, scaling. -/
theorem C04_commit_smul (E : Curve G1 G2 GT) (α : Zr) (N : ℕ) (hN : 0 < N) (m : List Zr) (x : Zr)
    (hm : m.length = N) :
    ∃ C, commit (newPublicParams E α N) m = some C ∧
      commit (newPublicParams E α N) (m.map (x * ·)) = some (x • C) := by
  refine ⟨_, commit_eq_dot E α N m hm hN, ?_⟩
  have : m.map (x * ·) = m.map (· * x) := by simp [mul_comm]
  rw [this, commit_eq_dot E α N _ (by simp [hm]) hN, dot_mul_left]

/-- The polynomial computed from two colliding vectors: `Σ_j (m_j - m'_j) X^(j+1)`. -/
noncomputable def collisionPoly (m m' : List Zr) : Polynomial Zr :=
  ∑ j ∈ Finset.range m.length, Polynomial.monomial (j + 1) (m.getD j 0 - m'.getD j 0)

/-- **C04**, binding: a collision makes the trapdoor a root of an explicit non-zero polynomial of degree
at most `N`. -/
theorem C04_commit_binding (E : Curve G1 G2 GT) (hg : E.genG1 ≠ 0) (α : Zr) (N : ℕ) (hN : 0 < N)
    (m m' : List Zr) (hm : m.length = N) (hm' : m'.length = N) (hne : m ≠ m')
    (hcol : commit (newPublicParams E α N) m = commit (newPublicParams E α N) m') :
    collisionPoly m m' ≠ 0 ∧ (collisionPoly m m').natDegree ≤ N ∧ (collisionPoly m m').eval α = 0 := by
  refine ⟨?_, ?_, ?_⟩
  · intro h0
    apply hne
    apply List.ext_getElem (by rw [hm, hm'])
    intro j h1 h2
    have hc := congrArg (fun p => Polynomial.coeff p (j + 1)) h0
    simp only [collisionPoly, Polynomial.finsetSum_coeff, Polynomial.coeff_monomial,
      Polynomial.coeff_zero] at hc
    rw [Finset.sum_eq_single j] at hc
    · simp only [if_true, sub_eq_zero] at hc
      simpa [List.getD, h1, h2] using hc
    · intro b _ hb; rw [if_neg (by omega)]
    · intro hnot; exact absurd (Finset.mem_range.2 h1) hnot
  · refine Polynomial.natDegree_sum_le_of_forall_le _ _ fun j hj => ?_
    rw [Finset.mem_range] at hj
    exact (Polynomial.natDegree_monomial_le _).trans (by omega)
  · rw [commit_eq E α N m hm hN, commit_eq E α N m' hm' hN, Option.some_inj, ← sub_eq_zero,
      ← sub_smul] at hcol
    have h := (smul_eq_zero.1 hcol).resolve_right hg
    rw [expo, expo, hm, hm', ← Finset.sum_sub_distrib] at h
    rw [collisionPoly, Polynomial.eval_finsetSum, hm]
    refine (Finset.sum_congr rfl fun j _ => ?_).trans h
    rw [Polynomial.eval_monomial]; ring

/-- A collision: with `α = 1` the vectors `[1,0]` and `[0,1]` commit to the same element. -/
example : commit (newPublicParams toyCurve 1 2) [1, 0] = commit (newPublicParams toyCurve 1 2) [0, 1] ∧
    ([1, 0] : List Zr) ≠ [0, 1] := by
  constructor
  · rw [commit_eq _ _ 2 [1, 0] rfl (by norm_num), commit_eq _ _ 2 [0, 1] rfl (by norm_num)]
    simp [expo, Finset.sum_range_succ]
  · intro h; simp at h

/-! ## C05 -/

theorem expo_append_last (α : Zr) (m : List Zr) (r : Zr) :
    expo α (m ++ [r]) = expo α m + r * α ^ (m.length + 1) := by
  rw [expo, List.length_append, List.length_singleton, Finset.sum_range_succ, expo]
  congr 1
  · refine Finset.sum_congr rfl fun j hj => ?_
    rw [Finset.mem_range] at hj
    simp [List.getD, List.getElem?_append_left hj]
  · simp [List.getD]

/-- **C05.** Hiding: for any message vectors and any blinding factor of the first there is exactly one
blinding factor of the second that gives the same commitment. -/
theorem C05_blinding_hides (E : Curve G1 G2 GT) (hg : E.genG1 ≠ 0) (α : Zr) (hα : α ≠ 0) (N : ℕ)
    (m m' : List Zr) (hm : m.length + 1 = N) (hm' : m'.length + 1 = N) (r : Zr) :
    ∃! r', commit (newPublicParams E α N) (m' ++ [r']) = commit (newPublicParams E α N) (m ++ [r]) ∧
      ∃ C, commit (newPublicParams E α N) (m ++ [r]) = some C := by
  have hN : 0 < N := by omega
  have hp : α ^ N ≠ 0 := pow_ne_zero _ hα
  have key : ∀ r', commit (newPublicParams E α N) (m' ++ [r'])
      = commit (newPublicParams E α N) (m ++ [r])
      ↔ r' = (expo α m + r * α ^ N - expo α m') * (α ^ N)⁻¹ := by
    intro r'
    rw [commit_eq E α N _ (by simp [hm']) hN, commit_eq E α N _ (by simp [hm]) hN, Option.some_inj,
      expo_append_last, expo_append_last, hm, hm', ← sub_eq_zero, ← sub_smul,
      smul_eq_zero_iff_left hg]
    constructor
    · intro h
      rw [eq_mul_inv_iff_mul_eq₀ hp]
      linear_combination h
    · intro h
      rw [h, inv_mul_cancel_right₀ hp]
      ring
  refine ⟨_, ⟨(key _).2 rfl, ⟨_, commit_eq E α N _ (by simp [hm]) hN⟩⟩, fun r' h => (key r').1 h.1⟩

example := C05_blinding_hides toyCurve one_ne_zero 5 (fun h => by
  have := natCast_ne_zero_of_lt (n := 5) (by norm_num) (by
    have := two_pow_63_lt_order; have h : 5 < 2 ^ 63 := by norm_num
    omega)
  exact this (by exact_mod_cast h)) 3 [1, 2] [3, 4] rfl rfl 9

/-! ## C06 -/

/-- A sequence of in-place updates, each replacing entry `i` by `x`; the vector is updated alongside. -/
def runUpdates (pp : PP G1 G2 GT) : List (ℕ × Zr) → List Zr → G1 → Option G1
  | [], _, C => some C
  | (i, x) :: us, m, C =>
    match update pp C m x i with
    | none => none
    | some C' => runUpdates pp us (m.set i x) C'

/-- The vector after the same sequence of replacements. -/
def updatedVector (m : List Zr) (us : List (ℕ × Zr)) : List Zr := us.foldl (fun m u => m.set u.1 u.2) m

theorem expo_set (α : Zr) (m : List Zr) (i : ℕ) (x : Zr) (hi : i < m.length) :
    expo α (m.set i x) = expo α m - m.getD i 0 * α ^ (i + 1) + x * α ^ (i + 1) := by
  have h1 : expo α m - m.getD i 0 * α ^ (i + 1)
      = ∑ j ∈ (Finset.range m.length).erase i, m.getD j 0 * α ^ (j + 1) := by
    rw [expo, ← Finset.sum_erase_add _ _ (Finset.mem_range.2 hi), add_sub_cancel_right]
  rw [h1, expo, List.length_set, ← Finset.sum_erase_add _ _ (Finset.mem_range.2 hi)]
  congr 1
  · refine Finset.sum_congr rfl fun j hj => ?_
    simp only [Finset.mem_erase] at hj
    simp [List.getD, List.getElem?_set_ne (Ne.symm hj.1)]
  · simp [List.getD, hi]

/-- **C06.** Any sequence of updates of a commitment to `m` ends in the commitment to the vector with
the same replacements. -/
theorem C06_update_sequence (E : Curve G1 G2 GT) (α : Zr) (N : ℕ) (hN : 0 < N) (us : List (ℕ × Zr))
    (m : List Zr) (hm : m.length = N) (hus : ∀ u ∈ us, u.1 < N) (C : G1)
    (hC : commit (newPublicParams E α N) m = some C) :
    runUpdates (newPublicParams E α N) us m C
      = commit (newPublicParams E α N) (updatedVector m us) := by
  induction us generalizing m C with
  | nil => simp [runUpdates, updatedVector, hC]
  | cons u us ih =>
    obtain ⟨i, x⟩ := u
    have hi : i < N := hus (i, x) (by simp)
    have hup : update (newPublicParams E α N) C m x i
        = commit (newPublicParams E α N) (m.set i x) := by
      rw [commit_eq E α N m hm hN, Option.some_inj] at hC
      rw [update, new_G1s_lt E α N hi, List.getElem?_eq_getElem (by omega),
        commit_eq E α N _ (by simp [hm]) hN, expo_set α m i x (by omega), ← hC]
      simp only [Option.bind_eq_bind, Option.bind_some, Option.pure_def, Option.some_inj]
      have : m.getD i 0 = m[i] := by simp [List.getD, hm, hi]
      rw [this]
      module
    have hc := commit_eq E α N (m.set i x) (by simp [hm]) hN
    rw [runUpdates, hup, hc]
    simp only
    rw [ih (m.set i x) (by simp [hm]) (fun u hu => hus u (by simp [hu])) _ hc]
    rfl

example := C06_update_sequence toyCurve 5 3 (by norm_num) [(0, 4), (2, 1), (0, 6)] [7, 8, 9] rfl
  (by simp) _ (commit_eq _ _ _ _ rfl (by norm_num))

/-! ## C07, C08 -/

theorem pairProd_scaled (E : Curve G1 G2 GT) (Cs : List G1) (qs : List Zr) (hl : Cs.length = qs.length)
    (hne : Cs ≠ []) : pairProd E Cs (qs.map fun q => q • E.genG2)
      = some (E.pair (dot qs Cs) E.genG2) := by
  rw [pairProd_eq E (by simpa using hl) hne]
  congr 1
  clear hne
  induction Cs generalizing qs with
  | nil => simp
  | cons C Cs ih =>
    cases qs with
    | nil => simp at hl
    | cons q qs =>
      have := ih qs (by simpa using hl)
      simp only [List.map_cons, List.zipWith_cons_cons, List.sum_cons, dot_cons, map_add, map_smul,
        LinearMap.add_apply, LinearMap.smul_apply] at this ⊢
      rw [this]

/-- The left-hand side of the aggregated check, `Σ_k t_k·α^(N-i_k)·C_k`. -/
def aggLHS (α : Zr) (N : ℕ) (t : ℕ → Zr) (is : List ℕ) (Cs : List G1) : G1 :=
  ∑ k ∈ Finset.range is.length, (t k * α ^ (N - is.getD k 0)) • Cs.getD k 0

theorem verifyAggregation_eq (E : Curve G1 G2 GT) (hE : E.Lawful) (α : Zr) (N : ℕ)
    (RO : PP G1 G2 GT → List G1 → ℕ → Option Zr) (t : ℕ → Zr) (is : List ℕ) (Cs : List G1) (π : G1)
    (sig : Zr) (hRO : ∀ k < Cs.length, RO (newPublicParams E α N) Cs k = some (t k))
    (hl : is.length = Cs.length) (hne : Cs ≠ []) (his : ∀ i ∈ is, i < N) :
    verifyAggregation E (newPublicParams E α N) is Cs π sig RO
      = some (decide (E.pair (π + (sig * α ^ (N + 1)) • E.genG1) E.genG2
          = E.pair (aggLHS α N t is Cs) E.genG2)) := by
  rw [verifyAggregation, mapM_some _ t _ (fun k hk => hRO k (by simpa [hl] using hk)),
    mapM_some _ (fun i => α ^ (N - i) • E.genG2) is]
  rotate_left
  · intro i hi
    have := his i hi
    rw [new_N, if_neg (by omega), new_G2s_lt E α N (by omega)]
    congr 3; omega
  simp only [Option.bind_eq_bind, Option.bind_some]
  rw [Gv.mulv2_eq (by simp)]
  simp only [Option.bind_some]
  have hz : List.zipWith (fun x h => x • h) ((List.range is.length).map t)
      (is.map fun i => α ^ (N - i) • E.genG2)
      = ((List.range is.length).map fun k => t k * α ^ (N - is.getD k 0)).map fun q => q • E.genG2 := by
    apply List.ext_getElem
    · simp
    · intro k h1 h2
      simp only [List.getElem_zipWith, List.getElem_map, List.getElem_range]
      have : is.getD k 0 = is[k]'(by simpa using h2) := by
        simp only [List.length_map, List.length_range] at h2
        simp [List.getD, h2]
      rw [this, mul_smul]
  rw [hz, pairProd_scaled E Cs _ (by simp [hl]) hne]
  simp only [Option.bind_some, pairProd_singleton, Option.pure_def, new_Gt, hE.genGt_eq]
  congr 2
  have hd : dot ((List.range is.length).map fun k => t k * α ^ (N - is.getD k 0)) Cs
      = aggLHS α N t is Cs := by
    rw [dot_eq_sum_range _ _ is.length (by simp) hl.symm, aggLHS]
    refine Finset.sum_congr rfl fun k hk => ?_
    rw [Finset.mem_range] at hk
    simp [List.getD, hk]
  rw [hd]
  simp only [map_add, map_smul, LinearMap.add_apply, LinearMap.smul_apply, mul_smul, add_comm]

/-- **C08.** `VerifyAggregation` accepts exactly when the aggregated opening equation holds in `G1`. -/
theorem C08_verifyAggregation_iff (E : Curve G1 G2 GT) (hE : E.Lawful) (hn : E.NonDegenerate) (α : Zr)
    (N : ℕ) (RO : PP G1 G2 GT → List G1 → ℕ → Option Zr) (t : ℕ → Zr) (is : List ℕ) (Cs : List G1)
    (π : G1) (sig : Zr) (hRO : ∀ k < Cs.length, RO (newPublicParams E α N) Cs k = some (t k))
    (hl : is.length = Cs.length) (hne : Cs ≠ []) (his : ∀ i ∈ is, i < N) :
    verifyAggregation E (newPublicParams E α N) is Cs π sig RO = some true
      ↔ ∑ k ∈ Finset.range is.length, (t k * α ^ (N - is.getD k 0)) • Cs.getD k 0
        = π + (sig * α ^ (N + 1)) • E.genG1 := by
  rw [verifyAggregation_eq E hE α N RO t is Cs π sig hRO hl hne his, Option.some_inj,
    decide_eq_true_eq]
  constructor
  · intro h
    rw [eq_comm, ← sub_eq_zero] at h
    rw [← LinearMap.sub_apply, ← map_sub] at h
    exact sub_eq_zero.1 (hn _ h)
  · intro h; rw [← h]; rfl

/-- **C08**, binding: two accepted aggregated openings with different values yield `α^(N+1)·g1`. -/
theorem C08_aggregate_binding (E : Curve G1 G2 GT) (hE : E.Lawful) (hn : E.NonDegenerate) (α : Zr)
    (N : ℕ) (RO : PP G1 G2 GT → List G1 → ℕ → Option Zr) (t : ℕ → Zr) (is : List ℕ) (Cs : List G1)
    (π₁ π₂ : G1) (sig₁ sig₂ : Zr) (hRO : ∀ k < Cs.length, RO (newPublicParams E α N) Cs k = some (t k))
    (hl : is.length = Cs.length) (hne : Cs ≠ []) (his : ∀ i ∈ is, i < N)
    (h₁ : verifyAggregation E (newPublicParams E α N) is Cs π₁ sig₁ RO = some true)
    (h₂ : verifyAggregation E (newPublicParams E α N) is Cs π₂ sig₂ RO = some true)
    (hs : sig₁ ≠ sig₂) : (sig₂ - sig₁)⁻¹ • (π₁ - π₂) = α ^ (N + 1) • E.genG1 := by
  rw [C08_verifyAggregation_iff E hE hn α N RO t is Cs _ _ hRO hl hne his] at h₁ h₂
  rw [h₁] at h₂
  have : π₁ - π₂ = (sig₂ - sig₁) • (α ^ (N + 1) • E.genG1) := by
    have h3 : π₁ = π₂ + (sig₂ * α ^ (N + 1)) • E.genG1 - (sig₁ * α ^ (N + 1)) • E.genG1 := by
      rw [← h₂]; abel
    rw [h3]; module
  rw [this, smul_smul, inv_mul_cancel₀ (sub_ne_zero.2 hs.symm), one_smul]

example := C08_verifyAggregation_iff toyCurve toyCurve_lawful toyCurve_nonDegenerate 5 3
  (fun _ _ _ => some 2) (fun _ => 2) [0, 2] [10, 11] 3 4 (fun _ _ => rfl) rfl (by simp) (by simp)

/-- **C07.** Aggregating the individual openings of any non-empty list of (vector, index) pairs gives a
proof that is accepted for the challenge-weighted sum of the opened entries, for every challenge
function `RO`. -/
theorem C07_aggregation_verifies (E : Curve G1 G2 GT) (hE : E.Lawful) (α : Zr) (N : ℕ) (hN : 2 ≤ N)
    (RO : PP G1 G2 GT → List G1 → ℕ → Option Zr) (items : List (List Zr × ℕ)) (hne : items ≠ [])
    (hitems : ∀ it ∈ items, it.1.length = N ∧ it.2 < N)
    (hRO : ∀ cs, ∀ k < items.length, ∃ t, RO (newPublicParams E α N) cs k = some t) :
    ∃ (Cs : List G1) (opens : List (Zr × G1)) (ts : List Zr) (π : G1),
      items.mapM (fun it => commit (newPublicParams E α N) it.1) = some Cs ∧
      items.mapM (fun it => openAt (newPublicParams E α N) it.2 it.1) = some opens ∧
      opens.map (fun o => some o.1) = items.map (fun it => it.1[it.2]?) ∧
      (List.range items.length).mapM (fun k => RO (newPublicParams E α N) Cs k) = some ts ∧
      aggregate (newPublicParams E α N) Cs (opens.map Prod.snd) RO = some π ∧
      verifyAggregation E (newPublicParams E α N) (items.map Prod.snd) Cs π
        (dot ts (opens.map Prod.fst)) RO = some true := by
  have hNpos : 0 < N := by omega
  set Cs := items.map fun it => expo α it.1 • E.genG1 with hCs
  have hmC : items.mapM (fun it => commit (newPublicParams E α N) it.1) = some Cs :=
    mapM_some _ _ _ fun it hit => commit_eq E α N it.1 (hitems it hit).1 hNpos
  set opens := items.map fun it => (it.1.getD it.2 0, openExpo α N it.2 it.1 • E.genG1) with hopens
  have hmO : items.mapM (fun it => openAt (newPublicParams E α N) it.2 it.1) = some opens :=
    mapM_some _ _ _ fun it hit => openAt_eq E α N it.1 (hitems it hit).1 hN it.2 (hitems it hit).2
  choose! t ht using hRO Cs
  set ts := (List.range items.length).map t with hts
  have hmt : (List.range items.length).mapM (fun k => RO (newPublicParams E α N) Cs k) = some ts :=
    mapM_some _ _ _ fun k hk => ht k (by simpa using hk)
  have hagg : aggregate (newPublicParams E α N) Cs (opens.map Prod.snd) RO
      = some (dot ts (opens.map Prod.snd)) := by
    rw [aggregate, if_neg (by simp [hCs, hopens])]
    rw [mapM_some _ (fun k => t k • (opens.map Prod.snd).getD k 0) _]
    · simp only [Option.bind_eq_bind, Option.bind_some]
      rw [Gv.sum_eq (by simp [hopens, hne])]
      rw [dot_eq_sum_range _ _ items.length (by simp [hts]) (by simp [hopens]),
        Finset.sum_eq_multiset_sum, Option.some_inj]
      simp only [Finset.range_val, Multiset.range, Multiset.map_coe, Multiset.sum_coe]
      simp only [List.length_map, hopens]
      congr 1
      refine List.map_congr_left fun k hk => ?_
      have hk' : k < items.length := by simpa using hk
      congr 1
      simp [hts, List.getD, hk']
    · intro k hk
      have hk' : k < items.length := by simpa [hopens] using hk
      rw [ht k hk']
      simp [List.getD, hk', hopens]
  refine ⟨Cs, opens, ts, _, hmC, hmO, ?_, hmt, hagg, ?_⟩
  · rw [hopens, List.map_map]
    refine List.map_congr_left fun it hit => ?_
    obtain ⟨h1, h2⟩ := hitems it hit
    simp [List.getD, h1, h2]
  · rw [verifyAggregation_eq E hE α N RO t _ Cs _ _ (fun k hk => ht k (by simpa [hCs] using hk))
      (by simp [hCs]) (by simp [hCs, hne]) (by
        intro i hi
        obtain ⟨it, hit, rfl⟩ := List.mem_map.1 hi
        exact (hitems it hit).2), Option.some_inj, decide_eq_true_eq]
    congr 1
    rw [aggLHS, List.length_map, dot_eq_sum_range _ _ items.length (by simp [hts]) (by simp [hopens]),
      dot_eq_sum_range ts (opens.map Prod.fst) items.length (by simp [hts]) (by simp [hopens]),
      Finset.sum_mul, Finset.sum_smul, ← Finset.sum_add_distrib]
    congr 1
    refine Finset.sum_congr rfl fun k hk => ?_
    rw [Finset.mem_range] at hk
    have hmem := List.getElem_mem hk
    obtain ⟨h1, h2⟩ := hitems _ hmem
    have hop := openExpo_add α N items[k].2 items[k].1 h1 h2
    have e1 : ts.getD k 0 = t k := by simp [hts, List.getD, hk]
    have e2 : (opens.map Prod.snd).getD k 0 = openExpo α N items[k].2 items[k].1 • E.genG1 := by
      simp [hopens, List.getD, hk]
    have e3 : (opens.map Prod.fst).getD k 0 = items[k].1.getD items[k].2 0 := by
      simp [hopens, List.getD, hk]
    have e4 : (items.map Prod.snd).getD k 0 = items[k].2 := by simp [List.getD, hk]
    have e5 : Cs.getD k 0 = expo α items[k].1 • E.genG1 := by simp [hCs, List.getD, hk]
    rw [e1, e2, e3, e4, e5, smul_smul, smul_smul, smul_eq_mul, ← add_smul, mul_assoc, mul_assoc,
      ← mul_add, hop]

example := C07_aggregation_verifies toyCurve toyCurve_lawful 5 3 (by norm_num) (PP.ro toyCurve)
  [([7, 8, 9], 1), ([1, 2, 3], 0)] (by simp) (by simp) (fun _ _ _ => ⟨_, toy_fe⟩)

end PoL.Props
