import Verif.Proofs.IrSoundness
import Verif.Proofs.Bits
import Verif.Spec.Toy
import Verif.Spec.Challenges

/-!
# C13–C15: the iterated reduction (`bp/ir.go`)
-/

set_option linter.unusedSectionVars false

namespace PoL.Props

open BP

variable {G1 G2 GT : Type} [AddCommGroup G1] [Module Zr G1] [AddCommGroup G2] [Module Zr G2]
  [AddCommGroup GT] [Module Zr GT] [DecidableEq G1]

/-- **C13.** For `2^k` generators (`1 ≤ k ≤ 15`) and `V` the commitment to `v`, the reduction returns
`k` rounds and challenges, and the verifier accepts them, with the same challenges and value, unless a
challenge is zero. -/
theorem C13_iterated_reduction_complete (E : Curve G1 G2 GT) (hE : E.Lawful) (pp : BP.PP G1) (k : ℕ)
    (hk1 : 1 ≤ k) (hk2 : k ≤ 15) (v : List Zr) (hG : pp.G.length = 2 ^ k) (hv : v.length = 2 ^ k) :
    ∃ Δ xs u, iterativeReduce E pp v (dot v pp.G) = some (Δ, xs, u) ∧ Δ.length = k ∧ xs.length = k ∧
      ((∀ x ∈ xs, x ≠ 0) → iterativeVerify E pp (dot v pp.G) Δ u = some (some (xs, u))) := by
  obtain ⟨Δ, xs, u, h1, h2, h3, -, h5⟩ := iterReduceLoop_complete E hE pp.digest k pp.G v (dot v pp.G)
    [] [] hG hv
  refine ⟨Δ, xs, u, ?_, h2, h3, fun hne => ?_⟩
  · rw [iterativeReduce, hG, isPowerOfTwo_pow k hk1 hk2]
    simpa using h1
  · rw [iterativeVerify, hG, isPowerOfTwo_pow k hk1 hk2]
    simpa using h5 hne rfl none [] (fun h => by omega)

theorem toy_irChallenge (d : Bytes) (A B V : Zr) : irChallenge toyCurve d A B V = some toyChallenge := toy_fe

theorem toy_iterReduceLoop_xs (d : Bytes) (k : ℕ) : ∀ (G v : List Zr) (V : Zr) (Δ : List (Zr × Zr × Zr))
    (xs : List Zr) (r), G.length = 2 ^ k → v.length = 2 ^ k → (∀ x ∈ xs, x ≠ 0) →
    iterReduceLoop toyCurve d (2 ^ k / 2) G v V Δ xs = some r → ∀ x ∈ r.2.1, x ≠ 0 := by
  induction k with
  | zero =>
    intro G v V Δ xs r hG hv hxs hr
    obtain ⟨v0, rfl⟩ := List.length_eq_one_iff.1 hv
    rw [iterReduceLoop] at hr
    simp at hr
    rw [← hr]; exact hxs
  | succ k ih =>
    intro G v V Δ xs r hG hv hxs hr
    have h2 : 2 ^ (k + 1) / 2 = 2 ^ k := by rw [pow_succ]; omega
    rw [pow_succ, mul_comm] at hG hv
    rw [h2, iterReduceLoop_step toyCurve d (2 ^ k) (by positivity) G v V Δ xs hG hv toyChallenge
      (toy_irChallenge _ _ _ _)] at hr
    refine ih _ _ _ _ _ r (foldG_length hG) (foldV_length hv) ?_ hr
    intro x hx
    rw [List.mem_append, List.mem_singleton] at hx
    rcases hx with hx | rfl
    · exact hxs x hx
    · exact toyChallenge_ne

/-- C13 is not vacuous: on the toy curve the challenges are non-zero. -/
theorem toy_iterReduce_xs (pp : BP.PP Zr) (v : List Zr) (V : Zr) (k : ℕ) (hG : pp.G.length = 2 ^ k)
    (hv : v.length = 2 ^ k) {Δ xs u} (h : iterativeReduce toyCurve pp v V = some (Δ, xs, u)) :
    ∀ x ∈ xs, x ≠ 0 := by
  simp only [iterativeReduce, Option.bind_eq_bind, Option.bind_eq_some_iff] at h
  obtain ⟨b, -, h⟩ := h
  rw [hG] at h
  split at h
  · simp at h
  · exact toy_iterReduceLoop_xs pp.digest k _ _ _ _ _ _ hG hv (by simp) h

example : ∃ Δ xs u, iterativeVerify toyCurve
    ({ digest := [], G := [1, 2, 3, 4], H := [], U := 9 } : BP.PP Zr)
    (dot [(5 : Zr), 6, 7, 8] [1, 2, 3, 4]) Δ u = some (some (xs, u)) := by
  obtain ⟨Δ, xs, u, h1, -, -, h4⟩ := C13_iterated_reduction_complete toyCurve toyCurve_lawful
    ({ digest := [], G := [1, 2, 3, 4], H := [], U := 9 } : BP.PP Zr) 2 (by norm_num) (by norm_num)
    [5, 6, 7, 8] rfl rfl
  exact ⟨Δ, xs, u, h4 (toy_iterReduce_xs _ _ _ 2 rfl rfl h1)⟩

/-- **C14.** The value returned by the reduction, for any `V`, is the multilinear evaluation
`Σ_i v_i·Π_j x_j^{bit_j(i)}` of `v` at the reversed challenges. -/
theorem C14_reduced_value_is_multilinear (E : Curve G1 G2 GT) (hE : E.Lawful) (pp : BP.PP G1) (k : ℕ)
    (hk1 : 1 ≤ k) (hk2 : k ≤ 15) (v : List Zr) (V : G1) (hG : pp.G.length = 2 ^ k)
    (hv : v.length = 2 ^ k) :
    ∃ Δ xs u, iterativeReduce E pp v V = some (Δ, xs, u) ∧ xs.length = k ∧
      u = multilinear v xs.reverse := by
  obtain ⟨Δ, xs, u, h1, h2, h3, h4, -⟩ := iterReduceLoop_complete E hE pp.digest k pp.G v V
    [] [] hG hv
  refine ⟨Δ, xs, u, ?_, h3, ?_⟩
  · rw [iterativeReduce, hG, isPowerOfTwo_pow k hk1 hk2]
    simpa using h1
  · rw [multilinear_eq (by rw [hv, h3]), h4]

/-- **C14**, the vector `f` of the range proof: the bit-decomposition loop computes exactly the
monomials `Π_j x_j^{bit_j(i)}`, so the reduced value is `<v,f>`. -/
theorem C14_f_vector (r : List Zr) (hr : r ≠ []) (v : List Zr) (hv : v.length = 2 ^ r.length) :
    ∃ f, rangeF (2 ^ r.length) r = some f ∧ f.length = 2 ^ r.length ∧
      (∀ i, i < 2 ^ r.length → f[i]? = some (bitMonomial r i)) ∧ multilinear v r = dot v f := by
  refine ⟨_, rangeF_eq r hr, by simp, fun i hi => by simp [hi], ?_⟩
  have h := multilinear_eq (v := v) (xs := r.reverse) (by simpa using hv)
  rw [List.reverse_reverse] at h
  rw [h, monomials_eq]
  simp

example : ∃ f, rangeF 4 [2, 3] = some f ∧ multilinear [1, 10, 100, 1000] [2, 3]
    = dot [(1 : Zr), 10, 100, 1000] f := by
  obtain ⟨f, h1, -, -, h2⟩ := C14_f_vector [2, 3] (by simp) [1, 10, 100, 1000] rfl
  exact ⟨f, h1, h2⟩

/-- The bit convention: for challenges `(a,b)` lowest bit first, the value is
`v₀ + v₁·a + v₂·b + v₃·a·b`. -/
example (a b v₀ v₁ v₂ v₃ : Zr) :
    multilinear [v₀, v₁, v₂, v₃] [a, b] = v₀ + v₁ * a + v₂ * b + v₃ * (a * b) := by
  simp [multilinear, bitMonomial]; ring

/-- Every claimed commitment is `V + x·A + x⁻¹·B` of the preceding one. -/
def irConsistent : List Zr → G1 → List (G1 × G1 × G1) → Prop
  | x :: xs, V, (A, B, V') :: Δ => V' = V + x • A + x⁻¹ • B ∧ irConsistent xs V' Δ
  | _, _, _ => True

theorem iterVerifyLoop_iff (E : Curve G1 G2 GT) (hE : E.Lawful) (digest : Bytes) (u : Zr) (j : ℕ) :
    ∀ (G : List G1) (V : G1) (Δ : List (G1 × G1 × G1)) (fV : Option G1) (ys : List Zr),
      G.length = 2 ^ j → Δ.length = j → (j = 0 → fV = some V) →
      (irConsistent (irChallenges E digest V Δ) V Δ ∧
        irAccepts (List.zipWith (fun x d => (x, d.1, d.2.1)) (irChallenges E digest V Δ) Δ) V G u →
        iterVerifyLoop E digest u (2 ^ j / 2) G V Δ fV ys
          = some (some (ys ++ irChallenges E digest V Δ, u))) ∧
      (¬ (irConsistent (irChallenges E digest V Δ) V Δ ∧
        irAccepts (List.zipWith (fun x d => (x, d.1, d.2.1)) (irChallenges E digest V Δ) Δ) V G u) →
        iterVerifyLoop E digest u (2 ^ j / 2) G V Δ fV ys = some none) := by
  induction j with
  | zero =>
    intro G V Δ fV ys hG hΔ hf
    obtain ⟨g0, rfl⟩ := List.length_eq_one_iff.1 hG
    obtain rfl := List.length_eq_zero_iff.1 hΔ
    rw [hf rfl, iterVerifyLoop]
    simp only [irChallenges, irConsistent, irAccepts, List.zipWith_nil_left, true_and]
    constructor
    · rintro ⟨g1, e1, e2⟩
      cases e1
      simp [e2]
    · intro h
      have : ¬ u • g0 = V := fun h' => h ⟨g0, rfl, h'⟩
      simp [this]
  | succ j ih =>
    intro G V Δ fV ys hG hΔ hf
    have h2 : 2 ^ (j + 1) / 2 = 2 ^ j := by rw [pow_succ]; omega
    rw [pow_succ, mul_comm] at hG
    match Δ, hΔ with
    | (A, B, V') :: Δ, hΔ =>
      obtain ⟨x, hx⟩ := irChallenge_isSome E hE digest A B V
      rw [h2, iterVerifyLoop_step E digest u (2 ^ j) (by positivity) G hG V A B V' Δ fV ys x hx]
      simp only [irChallenges, hx, Option.getD_some, irConsistent, List.zipWith_cons_cons, irAccepts,
        halvesG_eq _ _ G _ hG]
      have IH := ih (foldG 1 x⁻¹ (2 ^ j) G) V' Δ (some V') (ys ++ [x]) (foldG_length hG)
        (by simpa using hΔ) (fun _ => rfl)
      by_cases hV : V' = V + x • A + x⁻¹ • B
      · rw [if_pos hV, ← hV]
        simpa [hV.symm] using IH
      · rw [if_neg hV]
        simp [hV]

/-- **C15**, link to the code: on `k` rounds the verifier either accepts, returning the hash challenges and
the claimed value, or reports an error; and it accepts exactly if every claimed commitment is consistent
and the transcript with the hash challenges is accepting. -/
theorem C15_verify_iff_accepting_transcript (E : Curve G1 G2 GT) (hE : E.Lawful) (pp : BP.PP G1) (k : ℕ)
    (hk1 : 1 ≤ k) (hk2 : k ≤ 15) (hG : pp.G.length = 2 ^ k) (V : G1) (Δ : List (G1 × G1 × G1))
    (hΔ : Δ.length = k) (u : Zr) :
    (iterativeVerify E pp V Δ u = some (some (irChallenges E pp.digest V Δ, u)) ↔
      irConsistent (irChallenges E pp.digest V Δ) V Δ ∧
      irAccepts (List.zipWith (fun x d => (x, d.1, d.2.1)) (irChallenges E pp.digest V Δ) Δ) V pp.G u) ∧
    (iterativeVerify E pp V Δ u = some (some (irChallenges E pp.digest V Δ, u)) ∨
      iterativeVerify E pp V Δ u = some none) := by
  have h : iterativeVerify E pp V Δ u = iterVerifyLoop E pp.digest u (2 ^ k / 2) pp.G V Δ none [] := by
    rw [iterativeVerify, hG, isPowerOfTwo_pow k hk1 hk2]; rfl
  have H := iterVerifyLoop_iff E hE pp.digest u k pp.G V Δ none [] hG hΔ (fun h => by omega)
  rw [h]
  simp only [List.nil_append] at H
  refine ⟨⟨fun h1 => ?_, H.1⟩, ?_⟩
  · by_contra h2
    rw [H.2 h2] at h1
    simp at h1
  · by_cases h2 : irConsistent (irChallenges E pp.digest V Δ) V Δ ∧
      irAccepts (List.zipWith (fun x d => (x, d.1, d.2.1)) (irChallenges E pp.digest V Δ) Δ) V pp.G u
    · exact Or.inl (H.1 h2)
    · exact Or.inr (H.2 h2)

/-- **C15.** There are an extractor and a finder of linear relations, both computing from the scalars of
a transcript tree only, such that for every group, generators, commitment `V` and tree (depth `k`, four
distinct non-zero challenges per node) all of whose transcripts are accepted: the extracted vector opens
`V`; every relation found holds among the generators; and unless one is non-trivial, the value
claimed in every transcript is the multilinear evaluation of the extracted vector at its challenges. -/
theorem C15_iterated_reduction_special_sound :
    ∃ (ext : ITree Unit → List Zr) (rels : ITree Unit → List (List Zr)),
    ∀ (G1 : Type) [AddCommGroup G1] [Module Zr G1] (k : ℕ) (V : G1) (g : List G1) (t : ITree G1),
      g.length = 2 ^ k → t.WellFormed k → (∀ p ∈ t.paths, irAccepts p.1 V g p.2) →
      (ext t.scalars).length = 2 ^ k ∧ V = dot (ext t.scalars) g ∧
      (∀ r ∈ rels t.scalars, r.length = 2 ^ k ∧ dot r g = 0) ∧
      ((∃ r ∈ rels t.scalars, ∃ y ∈ r, y ≠ 0) ∨
        ∀ p ∈ t.paths, p.2 = multilinear (ext t.scalars) (p.1.map Prod.fst).reverse) := by
  refine ⟨irExtract, irRelations, fun G1 _ _ k V g t hg hwf hacc => ?_⟩
  obtain ⟨h1, h2, h3, h4⟩ := irExtract_sound k t V g hwf hg hacc
  refine ⟨h1, h2, h3, ?_⟩
  by_cases hz : ∀ r ∈ irRelations t.scalars, ∀ y ∈ r, y = 0
  · right
    intro p hp
    rw [multilinear_eq (by rw [h1, List.length_map, ITree.path_length k t hwf p hp])]
    exact h4 hz p hp
  · left
    push Not at hz
    exact hz

/-- The hypotheses of C15 are met by the honest transcripts of `v = (a,b)` over `G = (g,h)` with the
challenges 1, 2, 3, 4. -/
example (a b g h : Zr) : ∃ (t : ITree Zr), t.WellFormed 1 ∧
    ∀ p ∈ t.paths, irAccepts p.1 (a * g + b * h) [g, h] p.2 := by
  have nz : ∀ n : ℕ, 0 < n → n < 100 → (n : Zr) ≠ 0 := fun n h1 h2 =>
    natCast_ne_zero_of_lt h1.ne' (lt_of_lt_of_le h2 (by rw [order]; norm_num))
  have n2 : (2 : Zr) ≠ 0 := by simpa using nz 2 (by norm_num) (by norm_num)
  have n3 : (3 : Zr) ≠ 0 := by simpa using nz 3 (by norm_num) (by norm_num)
  have n4 : (4 : Zr) ≠ 0 := by simpa using nz 4 (by norm_num) (by norm_num)
  have key : ∀ x : Zr, x ≠ 0 → irAccepts [(x, b * g, a * h)] (a * g + b * h) [g, h] (a + x * b) := by
    intro x hx
    refine ⟨g + x⁻¹ * h, by simp [halvesG], ?_⟩
    simp only [smul_eq_mul]
    field_simp
    ring
  refine ⟨.node (b * g) (a * h) 1 2 3 4 (.leaf (a + 1 * b)) (.leaf (a + 2 * b)) (.leaf (a + 3 * b))
    (.leaf (a + 4 * b)), ?_, ?_⟩
  · simp only [ITree.WellFormed, and_true]
    refine ⟨?_, one_ne_zero, n2, n3, n4⟩
    simp only [List.nodup_cons, List.mem_cons, List.not_mem_nil, or_false, not_or, List.nodup_nil,
      and_true, not_false_eq_true]
    refine ⟨⟨?_, ?_, ?_⟩, ⟨?_, ?_⟩, ?_⟩ <;> intro h
    · exact one_ne_zero (α := Zr) (by linear_combination -h)
    · exact n2 (by linear_combination -h)
    · exact n3 (by linear_combination -h)
    · exact one_ne_zero (α := Zr) (by linear_combination -h)
    · exact n2 (by linear_combination -h)
    · exact one_ne_zero (α := Zr) (by linear_combination -h)
  · intro p hp
    simp only [ITree.paths, List.map_cons, List.map_nil, List.cons_append, List.nil_append,
      List.mem_cons, List.not_mem_nil, or_false] at hp
    rcases hp with rfl | rfl | rfl | rfl
    · exact key 1 one_ne_zero
    · exact key 2 n2
    · exact key 3 n3
    · exact key 4 n4

end PoL.Props
