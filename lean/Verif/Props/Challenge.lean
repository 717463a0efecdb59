import Verif.Proofs.Challenge

/-!
# C55: challenges are canonical field elements
-/

namespace PoL.Props

/-- The `i`-th 64-bit word of a digest, read big-endian. -/
def word (b : Bytes) (i : ℕ) : ℕ := beToNat ((b.drop (8 * i)).take 8)

/-- The most significant limb of the modulus. -/
def topLimb : ℕ := 3486998266802970665

theorem topLimb_div (w : ℕ) (h : w < 256 ^ 8) : w / topLimb < 6 := by
  rw [Nat.div_lt_iff_lt_mul (by decide +kernel)]
  exact lt_trans h (by decide +kernel)

theorem topLimb_mul (k : ℕ) (h : k < 6) : k * topLimb < 256 ^ 8 :=
  lt_of_le_of_lt (Nat.mul_le_mul_right _ (Nat.le_of_lt_succ h)) (by decide +kernel)

attribute [irreducible] topLimb

/-- The six digests whose challenge is zero: 24 zero bytes, then a multiple of the top limb of the
modulus. -/
def zeroDigests : List Bytes :=
  (List.range 6).map fun k => List.replicate 24 0 ++ natToBE 8 (k * topLimb)

/-- `FieldElementFromBytes` panics on every byte string that does not have 32 bytes. -/
theorem C55_other_lengths_panic (b : Bytes) (h : b.length ≠ 32) : fieldElementFromBytes b = none := by
  simp [fieldElementFromBytes, feFrom256Bits, h]

/-- On 32 bytes `feFrom256Bits` returns the four words with the top one reduced: the limbs are proper
64-bit words and the integer they hold is below the group order.  The conditional subtraction of the
group order is never taken (its guard, the comparison, always holds). -/
theorem C55_reduced (b : Bytes) (h : b.length = 32) :
    ∃ z, feFrom256Bits b = some z ∧
      z.z0 = word b 0 ∧ z.z1 = word b 1 ∧ z.z2 = word b 2 ∧ z.z3 = word b 3 % topLimb ∧
      z.z0 < 2 ^ 64 ∧ z.z1 < 2 ^ 64 ∧ z.z2 < 2 ^ 64 ∧ z.z3 < topLimb ∧
      z.toNat < order ∧ feBelow (feLimbs b) = true :=
  ⟨feLimbs b, feFrom256Bits_eq h, by rw [word]; exact congrArg _ (extract_eq b 0),
    by rw [word]; exact congrArg _ (extract_eq b 8), by rw [word]; exact congrArg _ (extract_eq b 16),
    by rw [word]; rw [topLimb]; exact congrArg (beToNat · % 3486998266802970665) (extract_eq b 24),
    word_lt b 0, word_lt b 8, word_lt b 16, by rw [topLimb]; exact Nat.mod_lt _ (by norm_num), feLimbs_lt_order b,
    feLimbs_below b⟩

/-- The challenge, as an equation in the field: `2^256` times the challenge is the integer in the limbs. -/
theorem C55_value (b : Bytes) (h : b.length = 32) :
    ∃ x, fieldElementFromBytes b = some x ∧
      x * 2 ^ 256 = ((word b 0 + word b 1 * 2 ^ 64 + word b 2 * 2 ^ 128 + word b 3 % topLimb * 2 ^ 192 : ℕ) : Zr) := by
  obtain ⟨z, hz, h0, h1, h2, h3, -⟩ := C55_reduced b h
  refine ⟨(z.toNat : Zr) * ((2 : Zr) ^ 256)⁻¹, by simp [fieldElementFromBytes, hz], ?_⟩
  rw [mul_assoc, inv_mul_cancel₀ two_pow_256_ne_zero, mul_one, FrElement.toNat, h0, h1, h2, h3]

/-- Two digests give the same challenge exactly when their first 24 bytes agree and their last words are
congruent modulo the top limb of the group order. -/
theorem C55_same_challenge_iff (a b : Bytes) (ha : a.length = 32) (hb : b.length = 32) :
    fieldElementFromBytes a = fieldElementFromBytes b ↔
      a.take 24 = b.take 24 ∧ word a 3 % topLimb = word b 3 % topLimb := by
  obtain ⟨z, hz, h0, h1, h2, h3, l0, l1, l2, -, -, -⟩ := C55_reduced a ha
  obtain ⟨y, hy, k0, k1, k2, k3, m0, m1, m2, -, -, -⟩ := C55_reduced b hb
  rw [feFrom256Bits_eq ha] at hz
  rw [feFrom256Bits_eq hb] at hy
  obtain rfl := Option.some.inj hz
  obtain rfl := Option.some.inj hy
  rw [fieldElement_eq_iff ha hb, ← h3, ← k3]
  have hw : ∀ i, i < 3 → word a i = word b i → (a.drop (8 * i)).take 8 = (b.drop (8 * i)).take 8 := by
    intro i hi h
    apply beToNat_inj _ h
    simp [ha, hb]
  constructor
  · intro h
    obtain ⟨e0, e1, e2, e3⟩ := limbs_inj l0 l1 l2 m0 m1 m2 h
    refine ⟨?_, e3⟩
    have split : ∀ c : Bytes, c.take 24 = c.take 8 ++ ((c.drop 8).take 8 ++ (c.drop 16).take 8) := by
      intro c
      rw [show c.drop 16 = (c.drop 8).drop 8 by rw [List.drop_drop], ← List.take_add, ← List.take_add]
    have w0 := hw 0 (by norm_num) (by rw [← h0, ← k0, e0])
    have w1 := hw 1 (by norm_num) (by rw [← h1, ← k1, e1])
    have w2 := hw 2 (by norm_num) (by rw [← h2, ← k2, e2])
    simp only [mul_zero, List.drop_zero] at w0
    norm_num at w1 w2
    rw [split a, split b, w0, w1, w2]
  · rintro ⟨h24, e3⟩
    have hi : ∀ i, i < 3 → word a i = word b i := by
      intro i hi
      have : ∀ c : Bytes, (c.drop (8 * i)).take 8 = ((c.take 24).drop (8 * i)).take 8 := by
        intro c
        rw [List.drop_take, List.take_take, Nat.min_eq_left (by omega)]
      rw [word, word, this a, this b, h24]
    rw [FrElement.toNat, FrElement.toNat, h0, h1, h2, k0, k1, k2, e3, hi 0 (by norm_num),
      hi 1 (by norm_num), hi 2 (by norm_num)]

theorem word_zero32 : word zero32 3 % topLimb = 0 := by decide +kernel

/-- The challenge is zero for exactly six digests. -/
theorem C55_zero_iff (b : Bytes) : fieldElementFromBytes b = some 0 ↔ b ∈ zeroDigests := by
  have hz := fieldElement_zero32
  by_cases hb : b.length = 32
  swap
  · rw [C55_other_lengths_panic b hb]
    constructor
    · simp
    · intro h
      exfalso
      apply hb
      simp only [zeroDigests, List.mem_map] at h
      obtain ⟨k, -, rfl⟩ := h
      simp [natToBE_length]
  rw [← hz, C55_same_challenge_iff b _ hb zero32_length, word_zero32, zero32_take]
  simp only [zeroDigests, List.mem_map, List.mem_range]
  have hsplit : b = b.take 24 ++ b.drop 24 := (List.take_append_drop 24 b).symm
  have hd : (b.drop 24).length = 8 := by simp [hb]
  have hword : word b 3 = beToNat (b.drop 24) := by
    rw [word]; norm_num; rw [List.take_of_length_le (by omega)]
  constructor
  · rintro ⟨h24, h3⟩
    have hlt : word b 3 < 256 ^ 8 := by
      rw [hword, ← hd]; exact beToNat_lt _
    refine ⟨word b 3 / topLimb, ?_, ?_⟩
    · exact topLimb_div _ hlt
    · rw [Nat.div_mul_cancel (Nat.dvd_of_mod_eq_zero h3), hword]
      conv_rhs => rw [hsplit, h24]
      rw [← hd, natToBE_beToNat]
  · rintro ⟨k, hk, rfl⟩
    refine ⟨List.take_left' List.length_replicate, ?_⟩
    rw [hword, List.drop_left' List.length_replicate, beToNat_natToBE 8 _ (topLimb_mul _ hk)]
    exact Nat.mul_mod_left _ _

/-- The six digests are pairwise different and each has 32 bytes. -/
theorem C55_six_digests : zeroDigests.length = 6 ∧ zeroDigests.Nodup ∧ ∀ b ∈ zeroDigests, b.length = 32 := by
  decide +kernel

/-- Example: a digest with a non-zero challenge; a non-zero digest with challenge zero; two digests with
the same challenge. -/
example : fieldElementFromBytes toyDigest ≠ some 0 ∧
    fieldElementFromBytes (List.replicate 24 0 ++ natToBE 8 topLimb) = some 0 ∧
    fieldElementFromBytes (List.replicate 24 7 ++ natToBE 8 1)
      = fieldElementFromBytes (List.replicate 24 7 ++ natToBE 8 (topLimb + 1)) := by
  refine ⟨?_, ?_, ?_⟩
  · rw [Ne, C55_zero_iff]; decide +kernel
  · rw [C55_zero_iff]; decide +kernel
  · rw [C55_same_challenge_iff _ _ (by decide +kernel) (by decide +kernel)]; decide +kernel

end PoL.Props
