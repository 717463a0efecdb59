import Verif.Spec.RangeEquation
import Verif.Proofs.Bits
import Mathlib.LinearAlgebra.Lagrange
import Mathlib.Tactic.Ring
import Mathlib.Tactic.LinearCombination

/-!
# Helper lemmas: the range equation forces bits
-/

namespace PoL

open Finset

/-- A polynomial with more roots than its degree is zero, coefficient by coefficient. -/
theorem sum_pow_eq_zero (N : ℕ) (c : ℕ → Zr) (S : Finset Zr) (hS : N ≤ S.card)
    (h : ∀ y ∈ S, ∑ i ∈ range N, c i * y ^ i = 0) : ∀ i < N, c i = 0 := by
  classical
  let p : Polynomial Zr := ∑ i ∈ range N, Polynomial.monomial i (c i)
  have hev : ∀ y ∈ S, p.eval y = 0 := by
    intro y hy
    rw [Polynomial.eval_finsetSum]
    simp only [Polynomial.eval_monomial]
    exact h y hy
  have hdeg : p.degree < N := by
    refine lt_of_le_of_lt (Polynomial.degree_sum_le _ _) ?_
    rw [Finset.sup_lt_iff (by exact WithBot.bot_lt_coe N)]
    intro i hi
    refine lt_of_le_of_lt (Polynomial.degree_monomial_le _ _) ?_
    exact_mod_cast Finset.mem_range.1 hi
  have hp : p = 0 := Polynomial.eq_zero_of_degree_lt_of_eval_finset_eq_zero S
    (lt_of_lt_of_le hdeg (by exact_mod_cast hS)) hev
  intro i hi
  have : p.coeff i = c i := by
    simp only [p, Polynomial.finsetSum_coeff, Polynomial.coeff_monomial]
    rw [Finset.sum_ite_eq' (range N) i c, if_pos (Finset.mem_range.2 hi)]
  rw [← this, hp, Polynomial.coeff_zero]

/-- A multilinear polynomial vanishing on a grid is zero. -/
theorem multilinear_grid (α β : Zr) (hαβ : α ≠ β) : ∀ (k : ℕ) (c : ℕ → Zr),
    (∀ r : List Zr, r.length = k → (∀ t ∈ r, t = α ∨ t = β) →
      ∑ i ∈ range (2 ^ k), c i * bitMonomial r i = 0) → ∀ i < 2 ^ k, c i = 0
  | 0, c, h, i, hi => by
    have := h [] rfl (by simp)
    simp [bitMonomial] at this
    simp at hi
    rw [hi, this]
  | k + 1, c, h, i, hi => by
    have split : ∀ (t : Zr) (r : List Zr), ∑ i ∈ range (2 ^ (k + 1)), c i * bitMonomial (t :: r) i
        = ∑ i ∈ range (2 ^ k), (c (2 * i) + t * c (2 * i + 1)) * bitMonomial r i := by
      intro t r
      rw [pow_succ]
      generalize 2 ^ k = m
      induction m with
      | zero => simp
      | succ m ih =>
        rw [show (m + 1) * 2 = m * 2 + 1 + 1 by ring, Finset.sum_range_succ, Finset.sum_range_succ, ih,
          Finset.sum_range_succ]
        simp only [bitMonomial]
        have h1 : m * 2 % 2 = 0 := by omega
        have h2 : (m * 2 + 1) % 2 = 1 := by omega
        have h3 : m * 2 / 2 = m := by omega
        have h4 : (m * 2 + 1) / 2 = m := by omega
        rw [h1, h2, h3, h4, mul_comm m 2]
        simp only [if_pos]
        rw [if_neg (by norm_num)]
        ring
    have hz : ∀ t, (t = α ∨ t = β) → ∀ j < 2 ^ k, c (2 * j) + t * c (2 * j + 1) = 0 := by
      intro t ht
      refine multilinear_grid α β hαβ k _ (fun r hr hm => ?_)
      rw [← split t r]
      refine h (t :: r) (by simp [hr]) ?_
      intro s hs
      rcases List.mem_cons.1 hs with rfl | hs
      · exact ht
      · exact hm s hs
    have hj : i / 2 < 2 ^ k := by rw [pow_succ] at hi; omega
    have ha := hz α (Or.inl rfl) (i / 2) hj
    have hb := hz β (Or.inr rfl) (i / 2) hj
    have h1 : c (2 * (i / 2) + 1) = 0 := by
      have : (α - β) * c (2 * (i / 2) + 1) = 0 := by linear_combination ha - hb
      rcases mul_eq_zero.1 this with h | h
      · exact absurd (sub_eq_zero.1 h) hαβ
      · exact h
    have h0 : c (2 * (i / 2)) = 0 := by rw [h1] at ha; simpa using ha
    rcases Nat.mod_two_eq_zero_or_one i with hm | hm
    · rw [← h0]; congr 1; omega
    · rw [← h1]; congr 1; omega

theorem sum_range_mul (g : ℕ → Zr) (n m : ℕ) :
    ∑ i ∈ range (n * m), g i = ∑ i ∈ range n, ∑ j ∈ range m, g (i * m + j) := by
  induction n with
  | zero => simp
  | succ n ih => rw [Nat.succ_mul, Finset.sum_range_add, ih, Finset.sum_range_succ]

/-- A sum of `m` weighted bits is a number below `2^m`. -/
theorem bits_sum_nat (b : ℕ → Zr) : ∀ (m : ℕ), (∀ j < m, b j = 0 ∨ b j = 1) →
    ∃ N : ℕ, N < 2 ^ m ∧ ∑ j ∈ range m, 2 ^ j * b j = (N : Zr)
  | 0, _ => ⟨0, by norm_num, by simp⟩
  | m + 1, h => by
    obtain ⟨N, hN, hs⟩ := bits_sum_nat b m (fun j hj => h j (by omega))
    rw [Finset.sum_range_succ, hs]
    rcases h m (by omega) with h0 | h1
    · exact ⟨N, by rw [pow_succ]; omega, by rw [h0]; simp⟩
    · exact ⟨N + 2 ^ m, by rw [pow_succ]; omega, by rw [h1]; push_cast; ring⟩

/-- The coefficients of the range equation as a polynomial in `y1`. -/
theorem range_equation_split (n : ℕ) (qH qF v w : ℕ → Zr) (x : Zr) (r : List Zr) (y0 : Zr) (S1 : Finset Zr)
    (hS1 : 3 ≤ S1.card) (h : ∀ y1 ∈ S1, rangeEquation n qH qF v w x r y0 y1) :
    (∑ i ∈ range (n * 63), qH i * qF i * y0 ^ i
      + ∑ i ∈ range n, qH (n * 63 + i) * qF (n * 63 + i) * y0 ^ (n * 63 + i) = 0) ∧
    (∑ i ∈ range (n * 63), (qH i + qF i - 1) * y0 ^ i = 0) ∧
    (∑ i ∈ range (n * 63), qH i * (2 ^ (i % 63) * bitMonomial r (i / 63))
      + ∑ i ∈ range n, qH (n * 63 + i) * (x * bitMonomial r i)
      - ∑ i ∈ range n, (v i + x * w i) * bitMonomial r i = 0) := by
  set e0 := ∑ i ∈ range (n * 63), qH i * qF i * y0 ^ i
      + ∑ i ∈ range (n), qH (n * 63 + i) * qF (n * 63 + i) * y0 ^ (n * 63 + i) with he0
  set e1 := ∑ i ∈ range (n * 63), (qH i + qF i - 1) * y0 ^ i with he1
  set e2 := ∑ i ∈ range (n * 63), qH i * (2 ^ (i % 63) * bitMonomial r (i / 63))
      + ∑ i ∈ range (n), qH (n * 63 + i) * (x * bitMonomial r i)
      - ∑ i ∈ range (n), (v i + x * w i) * bitMonomial r i with he2
  have hz := sum_pow_eq_zero 3 (fun i => if i = 0 then e0 else if i = 1 then e1 else e2) S1 hS1 (by
    intro y1 hy1
    have := h y1 hy1
    unfold rangeEquation at this
    have s1 : ∑ i ∈ range (n * 63), (qH i + y1) *
          (y1 ^ 2 * (2 ^ (i % 63) * bitMonomial r (i / 63)) + (y1 + qF i) * y0 ^ i)
        = y1 ^ 2 * ∑ i ∈ range (n * 63), qH i * (2 ^ (i % 63) * bitMonomial r (i / 63))
          + y1 ^ 3 * ∑ i ∈ range (n * 63), 2 ^ (i % 63) * bitMonomial r (i / 63)
          + y1 * ∑ i ∈ range (n * 63), (qH i + qF i - 1) * y0 ^ i
          + y1 * ∑ i ∈ range (n * 63), y0 ^ i
          + y1 ^ 2 * ∑ i ∈ range (n * 63), y0 ^ i
          + ∑ i ∈ range (n * 63), qH i * qF i * y0 ^ i := by
      simp only [Finset.mul_sum, ← Finset.sum_add_distrib]
      apply Finset.sum_congr rfl
      intro i _
      ring
    have s2 : ∑ i ∈ range (n), qH (n * 63 + i) *
          (y1 ^ 2 * (x * bitMonomial r i) + qF (n * 63 + i) * y0 ^ (n * 63 + i))
        = y1 ^ 2 * ∑ i ∈ range (n), qH (n * 63 + i) * (x * bitMonomial r i)
          + ∑ i ∈ range (n), qH (n * 63 + i) * qF (n * 63 + i) * y0 ^ (n * 63 + i) := by
      simp only [Finset.mul_sum, ← Finset.sum_add_distrib]
      apply Finset.sum_congr rfl
      intro i _
      ring
    rw [s1, s2] at this
    rw [Finset.sum_range_succ, Finset.sum_range_succ, Finset.sum_range_one, he0, he1, he2]
    simp only [if_true, if_false, one_ne_zero, (by norm_num : (2 : ℕ) ≠ 0), (by norm_num : (2 : ℕ) ≠ 1)]
    linear_combination this)
  exact ⟨by simpa using hz 0 (by norm_num), by simpa using hz 1 (by norm_num), by simpa using hz 2 (by norm_num)⟩

/-- The range equation forces bits; `D x` is the set of challenge lists of the reduction that occur with `x`,
`S0 x r` are the values of `y0` that occur with `x` and `r`, and `S1 x r y0` those of `y1` that occur with them and `y0`. -/
theorem range_equation_determined (k : ℕ) (qH qF v w : ℕ → Zr) (x₁ x₂ : Zr) (D : Zr → List Zr → Prop)
    (S0 : Zr → List Zr → Finset Zr) (S1 : Zr → List Zr → Zr → Finset Zr) (hx : x₁ ≠ x₂)
    (hD : ∀ x, (x = x₁ ∨ x = x₂) → ∀ c : ℕ → Zr,
      (∀ r, D x r → ∑ i ∈ range (2 ^ k), c i * bitMonomial r i = 0) → ∀ i < 2 ^ k, c i = 0)
    (hS0 : ∀ x, (x = x₁ ∨ x = x₂) → ∀ r, D x r → 2 ^ k * 64 ≤ (S0 x r).card)
    (hS1 : ∀ x, (x = x₁ ∨ x = x₂) → ∀ r, D x r → ∀ y0 ∈ S0 x r, 3 ≤ (S1 x r y0).card)
    (h : ∀ x, (x = x₁ ∨ x = x₂) → ∀ r, D x r →
      ∀ y0 ∈ S0 x r, ∀ y1 ∈ S1 x r y0, rangeEquation (2 ^ k) qH qF v w x r y0 y1) :
    (∀ i < 2 ^ k * 63, (qH i = 0 ∨ qH i = 1) ∧ qF i = 1 - qH i) ∧
    (∀ i < 2 ^ k, v i = ∑ j ∈ range 63, 2 ^ j * qH (i * 63 + j) ∧ w i = qH (2 ^ k * 63 + i)) := by
  have hpos : 0 < 2 ^ k := by positivity
  have key : ∀ x, (x = x₁ ∨ x = x₂) → ∀ r, D x r → ∀ y0 ∈ S0 x r, _ := fun x hxx r hr y0 hy0 =>
    range_equation_split (2 ^ k) qH qF v w x r y0 (S1 x r y0) (hS1 x hxx r hr y0 hy0) (h x hxx r hr y0 hy0)
  have hne : ∃ r, D x₁ r := by
    by_contra hno
    push Not at hno
    have := hD x₁ (Or.inl rfl) (fun _ => 1) (fun r hr => absurd hr (hno r)) 0 hpos
    exact one_ne_zero this
  obtain ⟨r₀, hr₀⟩ := hne
  have hprod : ∀ i < 2 ^ k * 63 + 2 ^ k, qH i * qF i = 0 :=
    sum_pow_eq_zero (2 ^ k * 63 + 2 ^ k) (fun i => qH i * qF i) (S0 x₁ r₀)
      (by have := hS0 x₁ (Or.inl rfl) r₀ hr₀; omega) (fun y hy => by
      rw [Finset.sum_range_add]
      exact (key x₁ (Or.inl rfl) r₀ hr₀ y hy).1)
  have hsum : ∀ i < 2 ^ k * 63, qH i + qF i - 1 = 0 :=
    sum_pow_eq_zero (2 ^ k * 63) (fun i => qH i + qF i - 1) (S0 x₁ r₀)
      (by have := hS0 x₁ (Or.inl rfl) r₀ hr₀; omega) (fun y hy =>
      (key x₁ (Or.inl rfl) r₀ hr₀ y hy).2.1)
  have hlin : ∀ x, (x = x₁ ∨ x = x₂) → ∀ i < 2 ^ k,
      (∑ j ∈ range 63, 2 ^ j * qH (i * 63 + j) - v i) + x * (qH (2 ^ k * 63 + i) - w i) = 0 := by
    intro x hxx
    refine hD x hxx _ (fun r hr => ?_)
    obtain ⟨y₀, hy₀⟩ : ∃ y, y ∈ S0 x r := Finset.card_pos.1 (by have := hS0 x hxx r hr; omega)
    have h3 := (key x hxx r hr y₀ hy₀).2.2
    rw [sum_range_mul _ (2 ^ k) 63, ← Finset.sum_add_distrib, ← Finset.sum_sub_distrib] at h3
    rw [← h3]
    apply Finset.sum_congr rfl
    intro i _
    have : ∑ j ∈ range 63, qH (i * 63 + j) * (2 ^ ((i * 63 + j) % 63) * bitMonomial r ((i * 63 + j) / 63))
        = (∑ j ∈ range 63, 2 ^ j * qH (i * 63 + j)) * bitMonomial r i := by
      rw [Finset.sum_mul]
      apply Finset.sum_congr rfl
      intro j hj
      have hj' := Finset.mem_range.1 hj
      have h1 : (i * 63 + j) % 63 = j := by omega
      have h2 : (i * 63 + j) / 63 = i := by omega
      rw [h1, h2]
      ring
    rw [this]
    ring
  refine ⟨fun i hi => ?_, fun i hi => ?_⟩
  · have h1 := hprod i (by omega)
    have h2 := hsum i hi
    have h3 : qF i = 1 - qH i := by linear_combination h2
    rw [h3] at h1
    refine ⟨?_, h3⟩
    rcases mul_eq_zero.1 h1 with h | h
    · exact Or.inl h
    · exact Or.inr (sub_eq_zero.1 h).symm
  · have h1 := hlin x₁ (Or.inl rfl) i hi
    have h2 := hlin x₂ (Or.inr rfl) i hi
    have h3 : qH (2 ^ k * 63 + i) - w i = 0 := by
      have : (x₁ - x₂) * (qH (2 ^ k * 63 + i) - w i) = 0 := by linear_combination h1 - h2
      rcases mul_eq_zero.1 this with h | h
      · exact absurd (sub_eq_zero.1 h) hx
      · exact h
    rw [h3] at h1
    exact ⟨by linear_combination -h1, by linear_combination -h3⟩

theorem range_equation_sound (k : ℕ) (qH qF v w : ℕ → Zr) (x₁ x₂ α β : Zr) (S0 S1 : Finset Zr)
    (hx : x₁ ≠ x₂) (hαβ : α ≠ β) (hS0 : 2 ^ k * 64 ≤ S0.card) (hS1 : 3 ≤ S1.card)
    (h : ∀ x, (x = x₁ ∨ x = x₂) → ∀ r : List Zr, r.length = k → (∀ t ∈ r, t = α ∨ t = β) →
      ∀ y0 ∈ S0, ∀ y1 ∈ S1, rangeEquation (2 ^ k) qH qF v w x r y0 y1) :
    (∀ i < 2 ^ k * 63, (qH i = 0 ∨ qH i = 1) ∧ qF i = 1 - qH i) ∧
    (∀ i < 2 ^ k, v i = ∑ j ∈ range 63, 2 ^ j * qH (i * 63 + j) ∧ w i = qH (2 ^ k * 63 + i)) := by
  refine range_equation_determined k qH qF v w x₁ x₂ (fun _ r => r.length = k ∧ ∀ t ∈ r, t = α ∨ t = β)
    (fun _ _ => S0) (fun _ _ _ => S1) hx (fun x _ c hc => multilinear_grid α β hαβ k c (fun r h1 h2 => hc r ⟨h1, h2⟩))
    (fun _ _ _ _ => hS0) (fun _ _ _ _ _ _ => hS1) (fun x hxx r hr => h x hxx r hr.1 hr.2)

end PoL
