import Verif.Spec.PathLengths
import Verif.Proofs.Paths2
import Mathlib.Order.Interval.Finset.Nat

/-! # Counting the numbers of a given length -/

namespace PoL
open Spec

theorem withDigits_eq {f n : ℕ} (hf : 2 ≤ f) (hn : 1 ≤ n) : withDigits f n = min (f ^ n) (2 ^ 256) - f ^ (n - 1) := by
  have : {x : ℕ | x < 2 ^ 256 ∧ (f.digits x).length = n} = ↑(Finset.Ico (f ^ (n - 1)) (min (f ^ n) (2 ^ 256))) := by
    ext x
    rw [Set.mem_ofPred_eq, digits_length_eq_iff _ _ _ hf hn, Finset.mem_coe, Finset.mem_Ico, lt_min_iff]
    tauto
  rw [withDigits, this, Set.ncard_coe_finset, Nat.card_Ico]

theorem withDigits_zero (f : ℕ) : withDigits f 0 ≤ 1 := by
  have : {x : ℕ | x < 2 ^ 256 ∧ (f.digits x).length = 0} ⊆ {0} := by
    rintro x ⟨-, hx⟩
    rw [List.length_eq_zero_iff, Nat.digits_eq_nil_iff_eq_zero] at hx
    exact hx
  exact (Set.ncard_le_ncard this).trans (by simp)

/-- A length is the most frequent one if it is so compared with its neighbours. -/
theorem withDigits_le {f L : ℕ} (hf : 2 ≤ f) (hL : 2 ≤ L) (h1 : (f - 1) * f ^ (L - 2) ≤ min (f ^ L) (2 ^ 256) - f ^ (L - 1))
    (h2 : 2 ^ 256 - f ^ L ≤ min (f ^ L) (2 ^ 256) - f ^ (L - 1)) (n : ℕ) : withDigits f n ≤ withDigits f L := by
  rw [withDigits_eq (n := L) hf (by omega)]
  have hpos : 1 ≤ (f - 1) * f ^ (L - 2) := Nat.mul_pos (by omega) (Nat.pow_pos (by omega))
  rcases Nat.eq_zero_or_pos n with rfl | hn
  · exact (withDigits_zero f).trans (hpos.trans h1)
  · rcases lt_trichotomy n L with h | h | h
    · rw [withDigits_eq hf hn]
      refine le_trans ?_ h1
      obtain ⟨m, rfl⟩ : ∃ m, n = m + 1 := ⟨n - 1, by omega⟩
      calc min (f ^ (m + 1)) (2 ^ 256) - f ^ (m + 1 - 1) ≤ f ^ (m + 1) - f ^ m := by
            rw [Nat.add_sub_cancel]; exact Nat.sub_le_sub_right (min_le_left _ _) _
        _ = (f - 1) * f ^ m := by rw [pow_succ, Nat.sub_mul, one_mul, mul_comm]
        _ ≤ (f - 1) * f ^ (L - 2) := Nat.mul_le_mul_left _ (Nat.pow_le_pow_right (by omega) (by omega))
    · rw [h, withDigits_eq hf (by omega)]
    · rw [withDigits_eq hf hn]
      refine le_trans ?_ h2
      calc min (f ^ n) (2 ^ 256) - f ^ (n - 1) ≤ 2 ^ 256 - f ^ (n - 1) := Nat.sub_le_sub_right (min_le_right _ _) _
        _ ≤ 2 ^ 256 - f ^ L := Nat.sub_le_sub_left (Nat.pow_le_pow_right (by omega) (by omega)) _

end PoL
