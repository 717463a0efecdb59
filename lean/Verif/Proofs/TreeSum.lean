import Verif.Lib.Order
import Verif.Model.Base
import Mathlib.Algebra.BigOperators.Group.Finset.Basic
import Mathlib.Algebra.Order.BigOperators.Group.Finset
import Mathlib.Data.ZMod.Basic

/-!
# Sums of leaves in a tree of sums
-/

namespace PoL

open Finset

/-- In a tree in which the total of every vertex is the sum of its entries, and every entry is the total of the child, the
leaves on different paths add up to at most the total of the root. -/
theorem tree_sum {ι : Type} [DecidableEq ι] (F : ℕ) : ∀ (n : ℕ) (S : Finset ι) (path : ι → ℕ → ℕ) (u : ι → ℕ → ℕ → ℕ) (amt : ι → ℕ),
    (∀ p ∈ S, ∀ i ≤ n, path p i < F) → (∀ p ∈ S, ∀ i ≤ n, u p i F = ∑ j ∈ range F, u p i j) →
    (∀ p ∈ S, ∀ i < n, u p i (path p i) = u p (i + 1) F) → (∀ p ∈ S, u p n (path p n) = amt p) →
    (∀ p ∈ S, ∀ q ∈ S, (∀ i ≤ n, path p i = path q i) → p = q) →
    (∀ p ∈ S, ∀ q ∈ S, ∀ i ≤ n, (∀ l < i, path p l = path q l) → ∀ j ≤ F, u p i j = u q i j) →
    ∀ p₀ ∈ S, ∑ p ∈ S, amt p ≤ u p₀ 0 F := by
  intro n
  induction n with
  | zero =>
    intro S path u amt hlt hbal hlink hleaf hinj hcons p₀ h₀
    rw [hbal p₀ h₀ 0 le_rfl, ← Finset.sum_fiberwise_of_maps_to (s := S) (t := range F) (g := fun p => path p 0)
      (fun p hp => Finset.mem_range.2 (hlt p hp 0 le_rfl))]
    refine Finset.sum_le_sum fun c hc => ?_
    by_cases hemp : ∃ p ∈ S, path p 0 = c
    · obtain ⟨p, hp, hpc⟩ := hemp
      have : S.filter (fun q => path q 0 = c) = {p} := by
        ext q
        simp only [Finset.mem_filter, Finset.mem_singleton]
        constructor
        · rintro ⟨hq, hqc⟩
          exact hinj q hq p hp fun i hi => by rw [Nat.le_zero.1 hi, hqc, hpc]
        · rintro rfl; exact ⟨hp, hpc⟩
      rw [this, Finset.sum_singleton, ← hleaf p hp, hpc,
        hcons p hp p₀ h₀ 0 le_rfl (by simp) c (Finset.mem_range.1 hc).le]
    · rw [Finset.sum_eq_zero]
      · exact Nat.zero_le _
      · intro p hp
        exact absurd ⟨p, (Finset.mem_filter.1 hp).1, (Finset.mem_filter.1 hp).2⟩ hemp
  | succ n ih =>
    intro S path u amt hlt hbal hlink hleaf hinj hcons p₀ h₀
    rw [hbal p₀ h₀ 0 (by omega), ← Finset.sum_fiberwise_of_maps_to (s := S) (t := range F) (g := fun p => path p 0)
      (fun p hp => Finset.mem_range.2 (hlt p hp 0 (by omega)))]
    refine Finset.sum_le_sum fun c hc => ?_
    by_cases hemp : ∃ p ∈ S, path p 0 = c
    · obtain ⟨p, hp, hpc⟩ := hemp
      have sub : ∀ q ∈ S.filter (fun q => path q 0 = c), q ∈ S ∧ path q 0 = c := fun q hq => Finset.mem_filter.1 hq
      have := ih (S.filter (fun q => path q 0 = c)) (fun q i => path q (i + 1)) (fun q i => u q (i + 1)) amt
        (fun q hq i hi => hlt q (sub q hq).1 (i + 1) (by omega)) (fun q hq i hi => hbal q (sub q hq).1 (i + 1) (by omega))
        (fun q hq i hi => hlink q (sub q hq).1 (i + 1) (by omega)) (fun q hq => hleaf q (sub q hq).1)
        (fun q hq r hr h => hinj q (sub q hq).1 r (sub r hr).1 fun i hi => by
          match i with
          | 0 => rw [(sub q hq).2, (sub r hr).2]
          | i + 1 => exact h i (by omega))
        (fun q hq r hr i hi h => hcons q (sub q hq).1 r (sub r hr).1 (i + 1) (by omega) fun l hl => by
          match l with
          | 0 => rw [(sub q hq).2, (sub r hr).2]
          | l + 1 => exact h l (by omega))
        p (Finset.mem_filter.2 ⟨hp, hpc⟩)
      refine this.trans ?_
      rw [zero_add, ← hlink p hp 0 (by omega), hpc, hcons p hp p₀ h₀ 0 (by omega) (by simp) c (Finset.mem_range.1 hc).le]
    · rw [Finset.sum_eq_zero]
      · exact Nat.zero_le _
      · intro p hp
        exact absurd ⟨p, (Finset.mem_filter.1 hp).1, (Finset.mem_filter.1 hp).2⟩ hemp

/-- Sums of small field elements do not wrap around. -/
theorem val_sum_small (F : ℕ) (hF : F ≤ 65536) (v : ℕ → Zr) (hv : ∀ j < F, (v j).val < 2 ^ 63) :
    (∑ j ∈ range F, v j).val = ∑ j ∈ range F, (v j).val := by
  have h1 : ∑ j ∈ range F, v j = ((∑ j ∈ range F, (v j).val : ℕ) : Zr) := by
    rw [Nat.cast_sum]
    exact Finset.sum_congr rfl fun j _ => (ZMod.natCast_zmod_val _).symm
  rw [h1]
  apply ZMod.val_natCast_of_lt
  have h2 : ∑ j ∈ range F, (v j).val ≤ ∑ j ∈ range F, 2 ^ 63 :=
    Finset.sum_le_sum fun j hj => (hv j (Finset.mem_range.1 hj)).le
  rw [Finset.sum_const, Finset.card_range, smul_eq_mul] at h2
  have h3 : F * 2 ^ 63 ≤ 65536 * 2 ^ 63 := Nat.mul_le_mul_right _ hF
  have := two_pow_127_lt_order
  omega

/-- An `int64` whose residue is below `2^63` is not negative, and is its residue. -/
theorem intToZr_small (a : ℤ) (h1 : -2 ^ 63 ≤ a) (h2 : a < 2 ^ 63) (h : (intToZr a).val < 2 ^ 63) :
    0 ≤ a ∧ ((intToZr a).val : ℤ) = a := by
  have hlt := two_pow_127_lt_order
  have e : ((intToZr a).val : ℤ) = a % (order : ℤ) := ZMod.val_intCast a
  have h0 : 0 ≤ a := by
    by_contra hneg
    have : a % (order : ℤ) = a + order := by
      rw [← Int.add_emod_right, Int.emod_eq_of_lt (by omega) (by omega)]
    omega
  exact ⟨h0, by rw [e, Int.emod_eq_of_lt h0 (by omega)]⟩

end PoL
