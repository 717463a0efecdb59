import Verif.Model.Paths
import Verif.Spec.Identifiers

/-! Helper lemmas about identifier paths. -/

namespace PoL
open Spec

variable {G1 G2 GT : Type} [AddCommGroup G1] [Module Zr G1] [AddCommGroup G2] [Module Zr G2]
  [AddCommGroup GT] [Module Zr GT]

/-! ## Base conversion -/

theorem digitsLoop_nat (f : ℕ) (hf : 2 ≤ f) (hf' : f ≤ 65536) (n : ℕ) :
    digitsLoop f (n : ℤ) = some (f.digits n) := by
  induction n using Nat.strong_induction_on with
  | _ n ih =>
    rw [digitsLoop]
    rcases Nat.eq_zero_or_pos n with rfl | hn
    · simp
    · rw [if_pos (by exact_mod_cast hn), if_neg (by omega)]
      have h1 : ((n : ℤ) / (f : ℤ)) = ((n / f : ℕ) : ℤ) := by norm_cast
      have h2 : ((n : ℤ) % (f : ℤ)).toNat = n % f := by norm_cast
      rw [h1, ih _ (Nat.div_lt_self hn hf), h2, Nat.digits_def' hf hn]
      have h3 : n % f % 65536 = n % f := Nat.mod_eq_of_lt (lt_of_lt_of_le (Nat.mod_lt _ (by omega)) hf')
      simp [h3]

theorem digitsLoop_nonpos (f : ℕ) (n : ℤ) (hn : n ≤ 0) : digitsLoop f n = some [] := by
  rw [digitsLoop, if_neg (by omega)]

theorem digitsLoop_one (n : ℤ) (hn : 0 < n) : digitsLoop 1 n = none := by
  have key : ∀ (num : ℤ) (r : List ℕ), digitsLoop 1 num = some r → ¬ 0 < num :=
    digitsLoop.partial_correctness 1 (fun num _ => ¬ 0 < num) (fun loop ih num r h hpos => by
      rw [if_pos hpos, if_neg (by omega)] at h
      simp only [Nat.cast_one, Int.ediv_one] at h
      cases hl : loop num with
      | none => simp [hl] at h
      | some rest => exact ih num rest hl hpos)
  cases h : digitsLoop 1 n with
  | none => rfl
  | some r => exact absurd hn (key n r h)

theorem bigDigitsLoop_nat (f : ℕ) (hf : 2 ≤ f) (hf' : f ≤ 65536) (n : ℕ) :
    bigDigitsLoop f (n : ℤ) = some (f.digits n) := by
  induction n using Nat.strong_induction_on with
  | _ n ih =>
    rw [bigDigitsLoop]
    rcases Nat.eq_zero_or_pos n with rfl | hn
    · simp
    · rw [if_pos (by omega), if_neg (by omega)]
      have h1 : ((n : ℤ) / (f : ℤ)) = ((n / f : ℕ) : ℤ) := by norm_cast
      have h2 : ((n : ℤ) % (f : ℤ)).toNat = n % f := by norm_cast
      rw [h1, ih _ (Nat.div_lt_self hn hf), h2, Nat.digits_def' hf hn]
      have h3 : n % f % 65536 = n % f := Nat.mod_eq_of_lt (lt_of_lt_of_le (Nat.mod_lt _ (by omega)) hf')
      simp [h3]

theorem bigDigitsLoop_neg (f : ℕ) (n : ℤ) (hn : n < 0) : bigDigitsLoop f n = none := by
  rcases Nat.eq_zero_or_pos f with rfl | hf
  · rw [bigDigitsLoop, if_pos (by omega), if_pos rfl]
  have key : ∀ (num : ℤ) (r : List ℕ), bigDigitsLoop f num = some r → ¬ num < 0 :=
    bigDigitsLoop.partial_correctness f (fun num _ => ¬ num < 0) (fun loop ih num r h hneg => by
      rw [if_pos (by omega), if_neg (by omega)] at h
      cases hl : loop (num / (f : ℤ)) with
      | none => simp [hl] at h
      | some rest => exact ih _ rest hl (Int.ediv_neg_of_neg_of_pos hneg (by exact_mod_cast hf)))
  cases h : bigDigitsLoop f n with
  | none => rfl
  | some r => exact absurd hn (key n r h)


/-! ## Parsing -/

theorem foldlM_digits (digit : Char → Option ℕ) (val : Char → ℕ) (base : ℕ) (s : Str)
    (h : ∀ c ∈ s, digit c = some (val c)) (acc : ℕ) :
    s.foldlM (fun acc c => do return acc * base + (← digit c)) acc
      = some (acc * base ^ s.length + Nat.ofDigits base (s.reverse.map val)) := by
  induction s generalizing acc with
  | nil => simp
  | cons c t ih =>
    rw [List.foldlM_cons, h c (by simp)]
    simp only [Option.pure_def, Option.bind_eq_bind, Option.bind_some]
    have := ih (fun c hc => h c (by simp [hc])) (acc * base + val c)
    simp only [Option.pure_def, Option.bind_eq_bind] at this
    rw [this]
    simp only [List.reverse_cons, List.map_append, List.map_cons, List.map_nil, List.length_cons,
      Nat.ofDigits_append, List.length_map, List.length_reverse, Nat.ofDigits_singleton]
    congr 1
    ring

theorem parseDigits_eq (digit : Char → Option ℕ) (val : Char → ℕ) (base : ℕ) (s : Str) (hs : s ≠ [])
    (h : ∀ c ∈ s, digit c = some (val c)) :
    parseDigits digit base s = some (Nat.ofDigits base (s.reverse.map val)) := by
  cases s with
  | nil => exact absurd rfl hs
  | cons c t =>
    rw [parseDigits]
    · rw [foldlM_digits digit val base _ h]; simp
    · simp

theorem isDigit_iff (c : Char) : c.isDigit = true ↔ 48 ≤ c.toNat ∧ c.toNat ≤ 57 := by
  simp only [Char.isDigit, Bool.and_eq_true, decide_eq_true_eq]
  exact Iff.rfl

theorem isLower_iff (c : Char) : c.isLower = true ↔ 97 ≤ c.toNat ∧ c.toNat ≤ 122 := by
  simp only [Char.isLower, Bool.and_eq_true, decide_eq_true_eq]
  exact Iff.rfl

theorem between_iff (a b c : Char) : (a ≤ c ∧ c ≤ b) ↔ a.toNat ≤ c.toNat ∧ c.toNat ≤ b.toNat := Iff.rfl

theorem decDigit_eq (c : Char) (h : c.isDigit = true) : decDigit c = some (c.toNat - '0'.toNat) := by
  have h1 : '0' ≤ c ∧ c ≤ '9' := (between_iff '0' '9' c).2 ((isDigit_iff c).1 h)
  rw [decDigit, if_pos h1]
  rfl

theorem isHexDigit_iff (c : Char) : isHexDigit c = true ↔
    (48 ≤ c.toNat ∧ c.toNat ≤ 57) ∨ (97 ≤ c.toNat ∧ c.toNat ≤ 102) ∨ (65 ≤ c.toNat ∧ c.toNat ≤ 70) := by
  simp only [isHexDigit, Bool.or_eq_true, Bool.and_eq_true, decide_eq_true_eq, isDigit_iff, between_iff]
  have h1 : 'a'.toNat = 97 := rfl
  have h2 : 'f'.toNat = 102 := rfl
  have h3 : 'A'.toNat = 65 := rfl
  have h4 : 'F'.toNat = 70 := rfl
  rw [h1, h2, h3, h4]
  omega

theorem hexDigit_eq (c : Char) (h : isHexDigit c = true) : hexDigit c = some (hexDigitValue c) := by
  rw [isHexDigit_iff] at h
  have h0 : '0'.toNat = 48 := rfl
  have h9 : '9'.toNat = 57 := rfl
  have h1 : 'a'.toNat = 97 := rfl
  have h2 : 'f'.toNat = 102 := rfl
  have h3 : 'A'.toNat = 65 := rfl
  have h4 : 'F'.toNat = 70 := rfl
  unfold hexDigit hexDigitValue
  simp only [isDigit_iff, isLower_iff, between_iff, h0, h9, h1, h2, h3, h4]
  rcases h with h | h | h
  · rw [if_pos h, if_pos h]
  · rw [if_neg (by omega), if_pos h, if_neg (by omega), if_pos (by omega)]
    congr 1; omega
  · rw [if_neg (by omega), if_neg (by omega), if_pos h, if_neg (by omega), if_neg (by omega)]
    congr 1; omega

theorem hexDigitValue_lt (c : Char) (h : isHexDigit c = true) : hexDigitValue c < 16 := by
  rw [isHexDigit_iff] at h
  have h0 : '0'.toNat = 48 := rfl
  have h1 : 'a'.toNat = 97 := rfl
  have h3 : 'A'.toNat = 65 := rfl
  unfold hexDigitValue
  simp only [isDigit_iff, isLower_iff, h0, h1, h3]
  split_ifs <;> omega

theorem parseSigned_unsigned (digit : Char → Option ℕ) (base : ℕ) (s : Str)
    (hp : ∀ t, s ≠ '+' :: t) (hm : ∀ t, s ≠ '-' :: t) :
    parseSigned digit base s = (parseDigits digit base s).map (fun n => (n : ℤ)) := by
  unfold parseSigned
  split
  · exact absurd rfl (hp _)
  · exact absurd rfl (hm _)
  · simp only [Option.pure_def, Option.bind_eq_bind]
    cases parseDigits digit base s <;> rfl

theorem decimal_no_sign (s : Str) (hs : IsDecimal s) : (∀ t, s ≠ '+' :: t) ∧ (∀ t, s ≠ '-' :: t) := by
  constructor <;> (rintro t rfl; have := hs _ (List.mem_cons_self ..); revert this; decide)

theorem hex_no_sign (s : Str) (hs : IsHex s) : (∀ t, s ≠ '+' :: t) ∧ (∀ t, s ≠ '-' :: t) := by
  constructor <;> (rintro t rfl; have := hs _ (List.mem_cons_self ..); revert this; decide)

theorem parse_decimal (s : Str) (h0 : s ≠ []) (hs : IsDecimal s) :
    parseSigned decDigit 10 s = some (decimalValue s : ℤ) := by
  rw [parseSigned_unsigned _ _ _ (decimal_no_sign s hs).1 (decimal_no_sign s hs).2,
    parseDigits_eq decDigit (fun c => c.toNat - '0'.toNat) 10 s h0 (fun c hc => decDigit_eq c (hs c hc))]
  rfl

theorem parse_hex (s : Str) (h0 : s ≠ []) (hs : IsHex s) :
    parseSigned hexDigit 16 s = some (hexValue s : ℤ) := by
  rw [parseSigned_unsigned _ _ _ (hex_no_sign s hs).1 (hex_no_sign s hs).2,
    parseDigits_eq hexDigit hexDigitValue 16 s h0 (fun c hc => hexDigit_eq c (hs c hc))]
  rfl

theorem decimalValue_lt (s : Str) (hs : IsDecimal s) : decimalValue s < 10 ^ s.length := by
  have := Nat.ofDigits_lt_base_pow_length (b := 10) (l := s.reverse.map fun c => c.toNat - '0'.toNat)
    (by norm_num) (by
      intro x hx
      rw [List.mem_map] at hx
      obtain ⟨c, hc, rfl⟩ := hx
      have h := (isDigit_iff c).1 (hs c (List.mem_reverse.1 hc))
      have h0 : '0'.toNat = 48 := rfl
      omega)
  rw [List.length_map, List.length_reverse] at this
  exact this

theorem decimalValue_inj (s t : Str) (hs : IsDecimal s) (ht : IsDecimal t) (hl : s.length = t.length)
    (h : decimalValue s = decimalValue t) : s = t := by
  have h0 : '0'.toNat = 48 := rfl
  have key := Nat.ofDigits_inj_of_len_eq (b := 10) (by norm_num)
    (L1 := s.reverse.map fun c => c.toNat - '0'.toNat) (L2 := t.reverse.map fun c => c.toNat - '0'.toNat)
    (by simpa using hl)
    (by
      intro x hx
      rw [List.mem_map] at hx
      obtain ⟨c, hc, rfl⟩ := hx
      have h := (isDigit_iff c).1 (hs c (List.mem_reverse.1 hc))
      omega)
    (by
      intro x hx
      rw [List.mem_map] at hx
      obtain ⟨c, hc, rfl⟩ := hx
      have h := (isDigit_iff c).1 (ht c (List.mem_reverse.1 hc))
      omega)
    (by unfold decimalValue at h; exact h)
  rw [List.map_reverse, List.map_reverse, List.reverse_inj] at key
  clear h
  induction s generalizing t with
  | nil => cases t with
    | nil => rfl
    | cons c t => simp at hl
  | cons c s ih =>
    cases t with
    | nil => simp at hl
    | cons d t =>
      simp only [List.map_cons, List.cons.injEq] at key
      have h1 := (isDigit_iff c).1 (hs c (by simp))
      have h2 := (isDigit_iff d).1 (ht d (by simp))
      have : c = d := by
        apply Char.toNat_inj.1
        omega
      rw [this, ih t (fun x hx => hs x (by simp [hx])) (fun x hx => ht x (by simp [hx])) (by simpa using hl) key.2]

end PoL
