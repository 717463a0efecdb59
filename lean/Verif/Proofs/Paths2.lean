import Verif.Proofs.Paths
import Verif.Proofs.IterReduce

/-! Helper lemmas about identifier paths: loops, table, hashing. -/

set_option linter.unusedSectionVars false

namespace PoL
open Spec

variable {G1 G2 GT : Type} [AddCommGroup G1] [Module Zr G1] [AddCommGroup G2] [Module Zr G2]
  [AddCommGroup GT] [Module Zr GT]

theorem isPowerOfTwoLoop_zero : isPowerOfTwoLoop 0 = none := by
  have key : ∀ (n : ℕ) (r : Bool), isPowerOfTwoLoop n = some r → n ≠ 0 :=
    isPowerOfTwoLoop.partial_correctness (fun n _ => n ≠ 0) (fun loop ih n r h h0 => by
      subst h0
      simp only [Nat.zero_mod, Nat.zero_div] at h
      rw [if_neg (by simp), if_neg (by simp)] at h
      exact ih 0 r h rfl)
  cases h : isPowerOfTwoLoop 0 with
  | none => rfl
  | some r => exact absurd rfl (key 0 r h)

theorem isPowerOfTwoLoop_pos (n : ℕ) (hn : 0 < n) :
    ∃ b, isPowerOfTwoLoop n = some b ∧ (b = true ↔ ∃ k, n = 2 ^ k) := by
  induction n using Nat.strong_induction_on with
  | _ n ih =>
    rw [isPowerOfTwoLoop]
    by_cases h1 : n / 2 = 0 ∧ n % 2 = 1
    · refine ⟨true, by rw [if_pos h1], ?_⟩
      simp only [true_iff]
      exact ⟨0, by omega⟩
    · rw [if_neg h1]
      by_cases h2 : n % 2 = 1
      · refine ⟨false, by rw [if_pos h2], ?_⟩
        simp only [Bool.false_eq_true, false_iff]
        rintro ⟨k, hk⟩
        cases k with
        | zero => simp at hk; omega
        | succ k => rw [pow_succ] at hk; omega
      · rw [if_neg h2]
        obtain ⟨b, hb, hb2⟩ := ih (n / 2) (by omega) (by omega)
        refine ⟨b, hb, hb2.trans ⟨?_, ?_⟩⟩
        · rintro ⟨k, hk⟩
          exact ⟨k + 1, by rw [pow_succ]; omega⟩
        · rintro ⟨k, hk⟩
          cases k with
          | zero => simp at hk; omega
          | succ k => exact ⟨k, by rw [pow_succ] at hk; omega⟩

theorem isPowerOfTwo_eq_true_iff (n : UInt16) :
    isPowerOfTwo n = some true ↔ ∃ k, 1 ≤ k ∧ n.toNat = 2 ^ k := by
  have h1 : (1 : UInt16).toNat = 1 := rfl
  unfold isPowerOfTwo
  by_cases hn : n = 1
  · subst hn
    simp only [if_pos, h1]
    constructor
    · intro h; simp at h
    · rintro ⟨k, hk, hk2⟩
      have : 2 ^ 1 ≤ 2 ^ k := Nat.pow_le_pow_right (by norm_num) hk
      omega
  · rw [if_neg hn]
    have hn1 : n.toNat ≠ 1 := fun h => hn (UInt16.toNat_inj.1 (by rw [h]; rfl))
    rcases Nat.eq_zero_or_pos n.toNat with h0 | h0
    · rw [h0, isPowerOfTwoLoop_zero]
      constructor
      · intro h; simp at h
      · rintro ⟨k, _, hk⟩
        have : 0 < 2 ^ k := by positivity
        omega
    · obtain ⟨b, hb, hb2⟩ := isPowerOfTwoLoop_pos n.toNat h0
      rw [hb]
      simp only [Option.some.injEq, hb2]
      constructor
      · rintro ⟨k, hk⟩
        refine ⟨k, ?_, hk⟩
        rcases Nat.eq_zero_or_pos k with rfl | h
        · simp at hk; omega
        · exact h
      · rintro ⟨k, _, hk⟩; exact ⟨k, hk⟩

theorem digitPathLenLoop_spec (f : ℕ) (hf : 2 ≤ f) (d k : ℕ) (hd : 30 ≤ k + d) :
    ∃ L, digitPathLenLoop f k = some L ∧ k ≤ L ∧ 10 ^ 9 < f ^ L ∧ ∀ j, k ≤ j → j < L → f ^ j ≤ 10 ^ 9 := by
  induction d generalizing k with
  | zero =>
    have h1 : 2 ^ 30 ≤ f ^ k :=
      (Nat.pow_le_pow_right (by norm_num) (by omega : 30 ≤ k)).trans (Nat.pow_le_pow_left hf k)
    have h2 : 10 ^ 9 < f ^ k := lt_of_lt_of_le (by norm_num) h1
    exact ⟨k, by rw [digitPathLenLoop, if_pos h2], le_refl _, h2, fun j h1 h2 => by omega⟩
  | succ d ih =>
    by_cases h : f ^ k > 10 ^ 9
    · exact ⟨k, by rw [digitPathLenLoop, if_pos h], le_refl _, h, fun j h1 h2 => by omega⟩
    · obtain ⟨L, hL, h1, h2, h3⟩ := ih (k + 1) (by omega)
      refine ⟨L, by rw [digitPathLenLoop, if_neg h, hL], by omega, h2, fun j hj hj2 => ?_⟩
      rcases Nat.eq_or_lt_of_le hj with rfl | hj
      · omega
      · exact h3 j hj hj2

theorem digitPathLenLoop_small (f : ℕ) (hf : f ≤ 1) (k : ℕ) : digitPathLenLoop f k = none := by
  have key : ∀ (n r : ℕ), digitPathLenLoop f n = some r → False :=
    digitPathLenLoop.partial_correctness f (fun _ _ => False) (fun loop ih n r h => by
      have : f ^ n ≤ 1 := (Nat.pow_le_pow_left hf n).trans (by simp)
      rw [if_neg (by omega)] at h
      exact ih _ _ h)
  cases h : digitPathLenLoop f k with
  | none => rfl
  | some r => exact (key k r h).elim

theorem digits_length_eq_iff (f n L : ℕ) (hf : 2 ≤ f) (hL : 1 ≤ L) :
    (f.digits n).length = L ↔ f ^ (L - 1) ≤ n ∧ n < f ^ L := by
  have h1 := Nat.digits_length_le_iff (b := f) (k := L) hf n
  have h2 := Nat.lt_digits_length_iff (b := f) (k := L - 1) hf n
  omega

theorem digitPath_eq (f : UInt16) (toPath : Str → Option (List ℕ)) (h : digitPath f = some toPath) :
    toPath = digitPathFn f := by
  unfold digitPath at h
  cases hp : isPowerOfTwo (f + 1) with
  | none => simp [hp] at h
  | some b =>
    cases b with
    | false => simp [hp] at h
    | true => simpa [hp, eq_comm] using h

/-- The path of a number that fits into 31 bits. -/
theorem digitPathFn_of_parse (f : UInt16) (hf : 2 ≤ f.toNat) (s : Str) (hs : s.length = 9) (n : ℕ)
    (hn : parseInt32 s = some (n : ℤ)) :
    ∃ L, digitPathLen f = some L ∧ digitPathFn f s
      = some (if (f.toNat.digits n).length ≠ L then f.toNat.digits n ++ [0] else f.toNat.digits n) := by
  obtain ⟨L, hL, -, -, -⟩ := digitPathLenLoop_spec f.toNat hf 29 1 (by omega)
  refine ⟨L, hL, ?_⟩
  have hlt := f.toNat_lt
  unfold digitPathFn
  rw [if_neg (by simpa using hs), hn]
  simp only [Option.pure_def, Option.bind_eq_bind, Option.bind_some]
  rw [digitsLoop_nat _ hf (by omega), digitPathLen, hL]
  rfl

theorem parseInt32_decimal (s : Str) (h0 : s ≠ []) (hl : s.length ≤ 9) (hs : IsDecimal s) :
    parseInt32 s = some (decimalValue s : ℤ) := by
  have h1 := decimalValue_lt s hs
  have h2 : 10 ^ s.length ≤ 10 ^ 9 := Nat.pow_le_pow_right (by norm_num) hl
  have h3 : decimalValue s < 1000000000 := lt_of_lt_of_le h1 (h2.trans (by norm_num))
  clear h1 h2
  unfold parseInt32
  rw [parse_decimal s h0 hs]
  simp only [Option.pure_def, Option.bind_eq_bind, Option.bind_some]
  rw [if_pos ⟨by omega, by omega⟩]

/-! ## The converse: what parses is decimal -/

theorem foldlM_decimal (s : Str) (acc n : ℕ)
    (h : s.foldlM (fun acc c => do return acc * 10 + (← decDigit c)) acc = some n) : IsDecimal s := by
  induction s generalizing acc with
  | nil => intro c hc; simp at hc
  | cons c t ih =>
    rw [List.foldlM_cons] at h
    cases hc : decDigit c with
    | none => simp [hc] at h
    | some d =>
      simp only [hc, Option.pure_def, Option.bind_eq_bind, Option.bind_some] at h
      have ht := ih (acc * 10 + d) (by simpa using h)
      intro x hx
      rcases List.mem_cons.1 hx with rfl | hx
      · unfold decDigit at hc
        by_cases hcc : '0' ≤ x ∧ x ≤ '9'
        · rw [isDigit_iff]
          exact (between_iff '0' '9' x).1 hcc
        · rw [if_neg hcc] at hc; simp at hc
      · exact ht x hx

theorem parseDigits_decimal (s : Str) (n : ℕ) (h : parseDigits decDigit 10 s = some n) :
    s ≠ [] ∧ IsDecimal s := by
  cases s with
  | nil => simp [parseDigits] at h
  | cons c t =>
    rw [parseDigits] at h
    · exact ⟨by simp, foldlM_decimal _ _ _ h⟩
    · simp

theorem parseSigned_decimal (s : Str) (n : ℤ) (h : parseSigned decDigit 10 s = some n) :
    IsDecimal s ∨ ∃ t, (s = '+' :: t ∨ s = '-' :: t) ∧ IsDecimal t := by
  unfold parseSigned at h
  split at h
  · rename_i t
    cases hp : parseDigits decDigit 10 t with
    | none => simp [hp] at h
    | some m => exact Or.inr ⟨t, Or.inl rfl, (parseDigits_decimal t m hp).2⟩
  · rename_i t
    cases hp : parseDigits decDigit 10 t with
    | none => simp [hp] at h
    | some m => exact Or.inr ⟨t, Or.inr rfl, (parseDigits_decimal t m hp).2⟩
  · rename_i t
    cases hp : parseDigits decDigit 10 s with
    | none => simp [hp] at h
    | some m => exact Or.inl (parseDigits_decimal s m hp).2

/-! ## Hexadecimal identifiers -/

theorem convert_hex (f : UInt16) (hf : 2 ≤ f.toNat) (s : Str) (h0 : s ≠ []) (hs : IsHex s) :
    convertPathWithFanout s f = some (f.toNat.digits (hexValue s)) := by
  have hlt := f.toNat_lt
  unfold convertPathWithFanout
  rw [parse_hex s h0 hs]
  exact bigDigitsLoop_nat _ hf (by omega) _

theorem hexChar_isHex (n : ℕ) (h : n < 16) : isHexDigit (hexChar n) = true := by
  interval_cases n <;> decide

theorem hexEncode_isHex (b : Bytes) : IsHex (hexEncode b) := by
  intro c hc
  rw [hexEncode, List.mem_flatMap] at hc
  obtain ⟨x, _, hx⟩ := hc
  have := x.toNat_lt
  simp only [List.mem_cons, List.not_mem_nil, or_false] at hx
  rcases hx with rfl | rfl
  · exact hexChar_isHex _ (by omega)
  · exact hexChar_isHex _ (by omega)

theorem hexEncode_length (b : Bytes) : (hexEncode b).length = 2 * b.length := by
  induction b with
  | nil => rfl
  | cons x t ih =>
    rw [hexEncode, List.flatMap_cons, List.length_append]
    rw [hexEncode] at ih
    rw [ih]; simp; omega

theorem hashId_isSparseId (E : Curve G1 G2 GT) (hE : E.Lawful) (s : Str) : IsSparseId (hashId E s) := by
  refine ⟨?_, hexEncode_isHex _⟩
  rw [hashId, hexEncode_length, hE.sha_len]

theorem sparseId_ne_nil (s : Str) (h : IsSparseId s) : s ≠ [] := by
  rintro rfl; simpa using h.1

theorem expectedHexPathLength_ge_two (f L : ℕ) (h : expectedHexPathLength f = some L) :
    2 ≤ f ∧ 1 ≤ L ∧ ∃ k, 2 ≤ k ∧ k ≤ 14 ∧ f = 2 ^ k - 1 := by
  unfold expectedHexPathLength at h
  split at h <;> simp only [Option.some.injEq, reduceCtorEq] at h <;> subst h <;> refine ⟨by norm_num, by norm_num, ?_⟩
  · exact ⟨2, by norm_num⟩
  · exact ⟨3, by norm_num⟩
  · exact ⟨4, by norm_num⟩
  · exact ⟨5, by norm_num⟩
  · exact ⟨6, by norm_num⟩
  · exact ⟨7, by norm_num⟩
  · exact ⟨8, by norm_num⟩
  · exact ⟨9, by norm_num⟩
  · exact ⟨10, by norm_num⟩
  · exact ⟨11, by norm_num⟩
  · exact ⟨12, by norm_num⟩
  · exact ⟨13, by norm_num⟩
  · exact ⟨14, by norm_num⟩

theorem fanout_succ_pow (f : UInt16) (k : ℕ) (hk1 : 1 ≤ k) (hk : k ≤ 15) (hf : f.toNat = 2 ^ k - 1) :
    isPowerOfTwo (f + 1) = some true := by
  rw [isPowerOfTwo_eq_true_iff]
  refine ⟨k, hk1, ?_⟩
  have h2 : 2 ^ k ≤ 2 ^ 15 := Nat.pow_le_pow_right (by norm_num) hk
  have h3 : 0 < 2 ^ k := by positivity
  rw [UInt16.toNat_add, hf]
  have : (1 : UInt16).toNat = 1 := rfl
  rw [this, Nat.sub_add_cancel h3]
  apply Nat.mod_eq_of_lt
  norm_num at h2 ⊢
  omega

theorem hexId2Path_eq_some_iff (E : Curve G1 G2 GT) (f : UInt16) (toPath : Str → Option (List ℕ)) :
    hexId2Path E f = some toPath ↔
      ∃ L, expectedHexPathLength f.toNat = some L ∧ toPath = hexPathLoop E f L := by
  unfold hexId2Path
  constructor
  · intro h
    cases hp : isPowerOfTwo (f + 1) with
    | none => simp [hp] at h
    | some b =>
      cases b with
      | false => simp [hp] at h
      | true =>
        cases hL : expectedHexPathLength f.toNat with
        | none => simp [hp, hL] at h
        | some L => exact ⟨L, rfl, by simpa [hp, hL, eq_comm] using h⟩
  · rintro ⟨L, hL, rfl⟩
    obtain ⟨-, -, k, hk1, hk2, hk3⟩ := expectedHexPathLength_ge_two _ _ hL
    rw [fanout_succ_pow f k (by omega) (by omega) hk3]
    simp [hL]

/-- One turn of the loop for a hexadecimal identifier. -/
theorem hexPathLoop_hex (E : Curve G1 G2 GT) (f : UInt16) (hf : 2 ≤ f.toNat) (L : ℕ) (s : Str) (h0 : s ≠ [])
    (hs : IsHex s) : hexPathLoop E f L s =
      if (f.toNat.digits (hexValue s)).length = L then some (f.toNat.digits (hexValue s))
      else hexPathLoop E f L (hashId E s) := by
  conv_lhs => rw [hexPathLoop]
  rw [convert_hex f hf s h0 hs]
  simp only [Option.pure_def, Option.bind_eq_bind, Option.bind_some]

end PoL
