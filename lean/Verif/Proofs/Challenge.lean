import Verif.Spec.Toy

/-!
# Byte strings and field elements (helper lemmas)
-/

namespace PoL

theorem beToNat_lt (b : Bytes) : beToNat b < 256 ^ b.length := by
  induction b using List.reverseRecOn with
  | nil => simp [beToNat]
  | append_singleton b x ih =>
    rw [beToNat_append, List.length_append, List.length_singleton, pow_succ]
    have := x.toNat_lt
    omega

theorem natToBE_beToNat (b : Bytes) : natToBE b.length (beToNat b) = b := by
  induction b using List.reverseRecOn with
  | nil => rfl
  | append_singleton b x ih =>
    rw [beToNat_append, List.length_append, List.length_singleton, natToBE]
    have := x.toNat_lt
    have h1 : (beToNat b * 256 + x.toNat) / 256 = beToNat b := by omega
    have h2 : (beToNat b * 256 + x.toNat) % 256 = x.toNat := by omega
    rw [h1, h2, ih]
    simp

theorem beToNat_inj {a b : Bytes} (hl : a.length = b.length) (h : beToNat a = beToNat b) : a = b := by
  rw [← natToBE_beToNat a, ← natToBE_beToNat b, hl, h]

theorem word_lt (b : Bytes) (i : ℕ) : beToNat (b.extract i (i + 8)) < 2 ^ 64 := by
  refine lt_of_lt_of_le (beToNat_lt _) ?_
  have : (b.extract i (i + 8)).length ≤ 8 := by
    rw [List.extract_eq_take_drop]; simp
  calc 256 ^ _ ≤ 256 ^ 8 := Nat.pow_le_pow_right (by norm_num) this
    _ = 2 ^ 64 := by norm_num

theorem feLimbs_below (b : Bytes) : feBelow (feLimbs b) = true := by
  have : (feLimbs b).z3 < 3486998266802970665 := Nat.mod_lt _ (by norm_num)
  simp [feBelow, this]

theorem feFrom256Bits_eq {b : Bytes} (h : b.length = 32) : feFrom256Bits b = some (feLimbs b) := by
  simp [feFrom256Bits, h, feLimbs_below]

theorem feLimbs_lt_order (b : Bytes) : (feLimbs b).toNat < order := by
  have h0 : (feLimbs b).z0 < 2 ^ 64 := word_lt b 0
  have h1 : (feLimbs b).z1 < 2 ^ 64 := word_lt b 8
  have h2 : (feLimbs b).z2 < 2 ^ 64 := word_lt b 16
  have h3 : (feLimbs b).z3 < 3486998266802970665 := Nat.mod_lt _ (by norm_num)
  rw [order_eq_limbs, FrElement.toNat]
  generalize (feLimbs b).z0 = a0 at *
  generalize (feLimbs b).z1 = a1 at *
  generalize (feLimbs b).z2 = a2 at *
  generalize (feLimbs b).z3 = a3 at *
  norm_num at *
  omega

theorem two_pow_256_ne_zero : ((2 : Zr) ^ 256) ≠ 0 := by
  apply pow_ne_zero
  intro h
  have h2 : ((2 : ℕ) : Zr) = 0 := by exact_mod_cast h
  rw [ZMod.natCast_eq_zero_iff] at h2
  have := Nat.le_of_dvd (by norm_num) h2
  have h3 := two_pow_63_lt_order
  have : (2 : ℕ) ≤ 2 ^ 63 := by norm_num
  omega

/-- Limbs below `2^64` are determined by the integer they hold. -/
theorem limbs_inj {a0 a1 a2 a3 b0 b1 b2 b3 : ℕ} (ha0 : a0 < 2 ^ 64) (ha1 : a1 < 2 ^ 64) (ha2 : a2 < 2 ^ 64)
    (hb0 : b0 < 2 ^ 64) (hb1 : b1 < 2 ^ 64) (hb2 : b2 < 2 ^ 64)
    (h : a0 + a1 * 2 ^ 64 + a2 * 2 ^ 128 + a3 * 2 ^ 192 = b0 + b1 * 2 ^ 64 + b2 * 2 ^ 128 + b3 * 2 ^ 192) :
    a0 = b0 ∧ a1 = b1 ∧ a2 = b2 ∧ a3 = b3 := by
  norm_num at *
  omega

theorem fieldElement_eq_iff {a b : Bytes} (ha : a.length = 32) (hb : b.length = 32) :
    fieldElementFromBytes a = fieldElementFromBytes b ↔ (feLimbs a).toNat = (feLimbs b).toNat := by
  simp only [fieldElementFromBytes, feFrom256Bits_eq ha, feFrom256Bits_eq hb]
  constructor
  · intro h
    have h : ((feLimbs a).toNat : Zr) * ((2 : Zr) ^ 256)⁻¹ = ((feLimbs b).toNat : Zr) * ((2 : Zr) ^ 256)⁻¹ :=
      Option.some.inj h
    have h := mul_right_cancel₀ (inv_ne_zero two_pow_256_ne_zero) h
    rw [ZMod.natCast_eq_natCast_iff', Nat.mod_eq_of_lt (feLimbs_lt_order a),
      Nat.mod_eq_of_lt (feLimbs_lt_order b)] at h
    exact h
  · intro h
    change some (((feLimbs a).toNat : Zr) * ((2 : Zr) ^ 256)⁻¹) = some (((feLimbs b).toNat : Zr) * ((2 : Zr) ^ 256)⁻¹)
    rw [h]

theorem extract_eq (b : Bytes) (i : ℕ) : b.extract i (i + 8) = (b.drop i).take 8 := by
  rw [List.extract_eq_take_drop]; simp

/-- The digest of 32 zero bytes. -/
def zero32 : Bytes := List.replicate 32 0

theorem zero32_length : zero32.length = 32 := List.length_replicate
theorem zero32_take : zero32.take 24 = List.replicate 24 0 := by decide +kernel
theorem feFrom_zero32 : feFrom256Bits zero32 = some ⟨0, 0, 0, 0⟩ := by decide +kernel

theorem fieldElement_zero32 : fieldElementFromBytes zero32 = some 0 := by
  rw [fieldElementFromBytes]
  refine obind_step feFrom_zero32 ?_
  change some (((0 + 0 * 2 ^ 64 + 0 * 2 ^ 128 + 0 * 2 ^ 192 : ℕ) : Zr) * _) = _
  simp only [zero_mul, add_zero, Nat.cast_zero]

end PoL
