import Verif.Spec.Algebraic
import Verif.Proofs.PointProofs
import Mathlib.Algebra.Polynomial.Roots

/-! Combinations of the published powers as polynomials in the trapdoor. -/

namespace PoL.PP
open Spec Polynomial

variable {G1 G2 GT : Type} [AddCommGroup G1] [Module Zr G1] [AddCommGroup G2] [Module Zr G2]
  [AddCommGroup GT] [Module Zr GT]

/-- The exponents of the published powers. -/
def exponents (N : ℕ) : List ℕ := (List.range N).map (· + 1) ++ [0] ++ (List.range (N - 1)).map (N + 2 + ·)

theorem new_G1s_exponents (E : Curve G1 G2 GT) (α : Zr) (N : ℕ) :
    (newPublicParams E α N).G1s = (exponents N).map fun e => α ^ e • E.genG1 := by
  simp [new_G1s, exponents, Function.comp_def]

theorem exponents_bound {N e : ℕ} (h : e ∈ exponents N) : e ≠ N + 1 ∧ e ≤ 2 * N := by
  simp only [exponents, List.mem_append, List.mem_map, List.mem_range, List.mem_singleton] at h
  rcases h with (⟨a, h, rfl⟩ | rfl) | ⟨a, h, rfl⟩ <;> omega

/-- The polynomial of a combination. -/
noncomputable def poly (cs : List Zr) (es : List ℕ) : Zr[X] := (List.zipWith (fun c e => C c * X ^ e) cs es).sum

theorem combined_poly (cs : List Zr) (es : List ℕ) (α : Zr) (g : G1) :
    combined cs (es.map fun e => α ^ e • g) = (poly cs es).eval α • g := by
  induction cs generalizing es with
  | nil => simp [combined, poly]
  | cons c cs ih =>
    cases es with
    | nil => simp [combined, poly]
    | cons e es =>
      have := ih es
      simp only [combined, poly] at this ⊢
      simp [this, add_smul, mul_smul]

theorem poly_coeff (cs : List Zr) (es : List ℕ) {n : ℕ} (h : n ∉ es) : (poly cs es).coeff n = 0 := by
  induction cs generalizing es with
  | nil => simp [poly]
  | cons c cs ih =>
    cases es with
    | nil => simp [poly]
    | cons e es =>
      have := ih es fun hc => h (by simp [hc])
      simp only [poly] at this ⊢
      have hne : n ≠ e := fun hc => h (by simp [hc])
      simp [this, coeff_X_pow, hne]

theorem poly_degree (cs : List Zr) (es : List ℕ) {n : ℕ} (h : ∀ e ∈ es, e ≤ n) : (poly cs es).natDegree ≤ n := by
  rw [natDegree_le_iff_coeff_eq_zero]
  intro m hm
  exact poly_coeff cs es fun hc => by have := h m hc; omega

/-- For all but few secrets, a combination of published powers and a point that was there before is no multiple of the
missing power. -/
theorem missing_power (E : Curve G1 G2 GT) (hg : E.genG1 ≠ 0) (N : ℕ) (hN : 0 < N) (cs : List Zr) (Q : G1) (d : Zr) (hd : d ≠ 0) :
    ∃ bad : Finset Zr, bad.card ≤ 2 * N ∧ ∀ α ∉ bad,
      combined cs (newPublicParams E α N).G1s + Q ≠ (d * α ^ (N + 1)) • E.genG1 := by
  classical
  by_cases hQ : ∃ q : Zr, Q = q • E.genG1
  · obtain ⟨q, rfl⟩ := hQ
    let P : Zr[X] := poly cs (exponents N) + C q - C d * X ^ (N + 1)
    have hc : P.coeff (N + 1) = -d := by
      have h1 := poly_coeff cs (exponents N) (n := N + 1) fun h => (exponents_bound h).1 rfl
      simp only [P, coeff_sub, coeff_add, h1, coeff_C_mul, coeff_X_pow, coeff_C]
      simp
    have hP : P ≠ 0 := fun h0 => by
      rw [h0, coeff_zero] at hc
      exact hd (neg_eq_zero.1 hc.symm)
    have hdeg : P.natDegree ≤ 2 * N := by
      refine (natDegree_sub_le_of_le (n := 2 * N) (natDegree_add_le_of_degree_le
        (poly_degree cs (exponents N) fun e h => (exponents_bound h).2) ((natDegree_C q).le.trans (Nat.zero_le _)))
        ((natDegree_C_mul_X_pow_le d (N + 1)).trans (by omega : _ ≤ 2 * N))).trans (by simp)
    refine ⟨P.roots.toFinset, (Multiset.toFinset_card_le _).trans ((card_roots' P).trans hdeg), fun α hα h => hα ?_⟩
    rw [Multiset.mem_toFinset, mem_roots hP]
    rw [new_G1s_exponents, combined_poly, ← add_smul, ← sub_eq_zero, ← sub_smul, smul_eq_zero] at h
    rcases h with h | h
    · simpa [P] using h
    · exact absurd h hg
  · refine ⟨∅, by simp, fun α _ h => hQ ⟨d * α ^ (N + 1) - (poly cs (exponents N)).eval α, ?_⟩⟩
    rw [new_G1s_exponents, combined_poly] at h
    rw [sub_smul, ← h]
    abel

theorem combined_neg (cs : List Zr) (gs : List G1) : combined (cs.map Neg.neg) gs = -combined cs gs := by
  induction cs generalizing gs with
  | nil => simp [combined]
  | cons c cs ih =>
    cases gs with
    | nil => simp [combined]
    | cons g gs =>
      have := ih gs
      simp only [combined] at this ⊢
      simp [this, add_comm]

theorem combined_sub (cs cs' : List Zr) :
    ∃ ds : List Zr, ∀ gs : List G1, combined ds gs = combined cs gs - combined cs' gs := by
  induction cs generalizing cs' with
  | nil => exact ⟨cs'.map Neg.neg, fun gs => by rw [combined_neg]; simp [combined]⟩
  | cons c cs ih =>
    cases cs' with
    | nil => exact ⟨c :: cs, fun gs => by simp [combined]⟩
    | cons c' cs' =>
      obtain ⟨ds, h⟩ := ih cs'
      refine ⟨(c - c') :: ds, fun gs => ?_⟩
      cases gs with
      | nil => simp [combined]
      | cons g gs =>
        have := h gs
        simp only [combined] at this ⊢
        simp only [List.zipWith_cons_cons, List.sum_cons, this, sub_smul]
        abel

end PoL.PP
