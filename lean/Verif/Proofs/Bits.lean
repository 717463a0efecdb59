import Verif.Proofs.IterReduce
import Verif.Spec.Toy
import Mathlib.Data.Nat.Digits.Defs
import Mathlib.Data.Nat.Digits.Lemmas
import Mathlib.Data.Nat.Size

/-!
# Helper lemmas about bit decompositions
-/

set_option linter.unusedSectionVars false

namespace PoL

theorem bitsLoop_eq_digits (n : ℕ) : bitsLoop n = Nat.digits 2 n := by
  induction n using Nat.strong_induction_on with
  | _ n ih =>
    rw [bitsLoop]
    by_cases h : n = 0
    · simp [h]
    · rw [dif_neg h, ih (n / 2) (by omega), Nat.digits_def' (n := n) (by norm_num) (by omega)]

theorem bitsLoop_length_le_iff (k n : ℕ) : (bitsLoop n).length ≤ k ↔ n < 2 ^ k := by
  rw [bitsLoop_eq_digits, Nat.digits_length_le_iff (by norm_num)]

theorem bitsLoop_zero : bitsLoop 0 = [] := by rw [bitsLoop]; simp

theorem bitsLoop_succ {n : ℕ} (h : n ≠ 0) : bitsLoop n = n % 2 :: bitsLoop (n / 2) := by
  rw [bitsLoop, dif_neg h]

/-- The bits of `i`, padded with zeros to `k` entries. -/
def bitsPad (k i : ℕ) : List ℕ := bitsLoop i ++ List.replicate (k - (bitsLoop i).length) 0

theorem bitsPad_length {k i : ℕ} (h : i < 2 ^ k) : (bitsPad k i).length = k := by
  have := (bitsLoop_length_le_iff k i).2 h
  simp [bitsPad]; omega

theorem bitsPad_succ {k i : ℕ} : bitsPad (k + 1) i = i % 2 :: bitsPad k (i / 2) := by
  by_cases h0 : i = 0
  · subst h0; simp [bitsPad, bitsLoop_zero, List.replicate_succ]
  · simp [bitsPad, bitsLoop_succ h0]

theorem bitsPad_le_one : ∀ (k i : ℕ), ∀ b ∈ bitsPad k i, b ≤ 1 := by
  intro k i b hb
  simp only [bitsPad, List.mem_append, List.mem_replicate] at hb
  rcases hb with hb | hb
  · rw [bitsLoop_eq_digits] at hb
    have := Nat.digits_lt_base (by norm_num) hb
    omega
  · omega

theorem bitsPad_value (i : ℕ) : ∀ k, Nat.ofDigits 2 (bitsPad k i) = i := by
  intro k
  rw [bitsPad, Nat.ofDigits_append, Nat.ofDigits_replicate_zero, bitsLoop_eq_digits, Nat.ofDigits_digits]
  simp

theorem beToNat_zrBytes_val (x : Zr) : beToNat (zrBytes x) = x.val := beToNat_zrBytes x

theorem bits_eq (n : Zr) (bitLen : ℕ) : bits n bitLen = bitsPad bitLen n.val := by
  simp only [bits, bitsPad, beToNat_zrBytes]

namespace BP

theorem zipWith_bitsPad_prod : ∀ (r : List Zr) (i : ℕ),
    (List.zipWith (fun x b => if b = 0 then (1 : Zr) else x) r (bitsPad r.length i)).prod
      = bitMonomial r i
  | [], i => by simp [bitMonomial]
  | x :: r, i => by
    rw [List.length_cons, bitsPad_succ, List.zipWith_cons_cons, List.prod_cons,
      zipWith_bitsPad_prod r, bitMonomial]
    congr 1
    rcases Nat.mod_two_eq_zero_or_one i with h | h <;> simp [h]

theorem size_two_pow_sub_one (k : ℕ) : Nat.size (2 ^ k - 1) = k := by
  apply le_antisymm
  · rw [Nat.size_le]; have : 0 < 2 ^ k := by positivity
    omega
  · have h := Nat.lt_size_self (2 ^ k - 1)
    have : 0 < 2 ^ k := by positivity
    exact (Nat.pow_le_pow_iff_right (by norm_num : 1 < 2)).1 (by omega)

theorem bitDecomposition_eq {k i : ℕ} (h : i < 2 ^ k) :
    bitDecomposition i (2 ^ k - 1) = some (bitsPad k i) := by
  rw [bitDecomposition, size_two_pow_sub_one]
  rw [if_pos ((bitsLoop_length_le_iff k i).2 h)]
  rfl

theorem rangeF_eq (r : List Zr) (hr : r ≠ []) :
    rangeF (2 ^ r.length) r = some ((List.range (2 ^ r.length)).map (bitMonomial r)) := by
  apply mapM_some
  intro i hi
  rw [bitDecomposition_eq (List.mem_range.1 hi)]
  simp only [Option.bind_eq_bind, Option.bind_some]
  rw [Vec.powBitVec, if_neg (by rw [bitsPad_length (List.mem_range.1 hi)]; simp), Option.bind_some]
  rw [← zipWith_bitsPad_prod r i]
  have hne : List.zipWith (fun x b => if b = 0 then (1 : Zr) else x) r (bitsPad r.length i) ≠ [] := by
    intro h
    have := congrArg List.length h
    rw [List.length_zipWith, bitsPad_length (List.mem_range.1 hi)] at this
    simp at this
    exact hr this
  match List.zipWith (fun x b => if b = 0 then (1 : Zr) else x) r (bitsPad r.length i), hne with
  | y :: ys, _ => rw [Vec.product, foldl_mul_eq_prod, List.prod_cons]

end BP
end PoL
