import Verif.Proofs.Vec
import Mathlib.Algebra.Algebra.Bilinear
import Mathlib.Tactic.NormNum
import Mathlib.Tactic.LinearCombination
import Mathlib.Tactic.Positivity

/-!
# A concrete instance of the external libraries

Used only to show that the hypotheses of the theorems can be met: all three groups are the scalar field,
the pairing is multiplication and the hash is constant (its challenge is non-zero).
-/

namespace PoL

theorem natToBE_length (len n : ℕ) : (natToBE len n).length = len := by
  induction len generalizing n with
  | zero => rfl
  | succ len ih => simp [natToBE, ih]

theorem beToNat_append (b : Bytes) (x : UInt8) : beToNat (b ++ [x]) = beToNat b * 256 + x.toNat := by
  simp [beToNat]

theorem beToNat_natToBE (len n : ℕ) (h : n < 256 ^ len) : beToNat (natToBE len n) = n := by
  induction len generalizing n with
  | zero => simp at h; subst h; rfl
  | succ len ih =>
    rw [natToBE, beToNat_append, ih (n / 256) (by rw [Nat.div_lt_iff_lt_mul (by norm_num)]; rw [pow_succ] at h; exact h)]
    have : (UInt8.ofNat (n % 256)).toNat = n % 256 := by
      simp
    rw [this]; omega

theorem zr_val_lt (x : Zr) : x.val < order := ZMod.val_lt x

theorem zr_val_lt_256 (x : Zr) : x.val < 256 ^ 32 := by
  have h1 := zr_val_lt x
  have h2 := order_lt_two_pow_254
  have h3 : (2 : ℕ) ^ 254 ≤ 256 ^ 32 := by norm_num
  omega

@[simp] theorem beToNat_zrBytes (x : Zr) : beToNat (zrBytes x) = x.val :=
  beToNat_natToBE 32 _ (zr_val_lt_256 x)

/-- `NewZrFromBytes` inverts `Bytes`. -/
@[simp] theorem newZrFromBytes_zrBytes (x : Zr) : newZrFromBytes (zrBytes x) = x := by
  rw [newZrFromBytes, beToNat_zrBytes, ZMod.natCast_zmod_val]

@[simp] theorem zrBytes_length (x : Zr) : (zrBytes x).length = 32 := natToBE_length _ _

theorem zrBytes_injective : Function.Injective zrBytes := fun x y h => by
  rw [← newZrFromBytes_zrBytes x, h, newZrFromBytes_zrBytes]

/-- The constant digest of the toy hash. -/
def toyDigest : Bytes := [0, 0, 0, 0, 0, 0, 0, 1] ++ List.replicate 24 0

/-- All groups are the scalar field, the pairing is the product. -/
def toyCurve : Curve Zr Zr Zr where
  genG1 := 1
  genG2 := 1
  genGt := 1
  pair := LinearMap.mul Zr Zr
  g1Bytes := zrBytes
  g1FromBytes := fun b => some (newZrFromBytes b)
  g2Bytes := zrBytes
  gtBytes := zrBytes
  hashToG1 := fun _ => 1
  sha256 := fun _ => toyDigest
  hmac := fun _ _ => toyDigest

theorem toyCurve_lawful : toyCurve.Lawful where
  genGt_eq := by simp [toyCurve]
  sha_len := fun _ => rfl
  hmac_len := fun _ _ => rfl
  g1_roundtrip := fun p => by simp [toyCurve]
  g1_nonempty := fun p h => by
    have := congrArg List.length h
    simp [toyCurve] at this
  g1_len := fun p => by simp [toyCurve]

theorem toyCurve_nonDegenerate : toyCurve.NonDegenerate := fun p h => by
  simpa [toyCurve] using h

/-- The constant challenge. -/
def toyChallenge : Zr := ((2 : Zr) ^ 256)⁻¹

theorem toy_fe : fieldElementFromBytes toyDigest = some toyChallenge := by
  have h : feFrom256Bits toyDigest = some ⟨1, 0, 0, 0⟩ := by decide +kernel
  rw [fieldElementFromBytes, h]
  simp [FrElement.toNat, toyChallenge]

theorem natCast_ne_zero_of_lt {n : ℕ} (h0 : n ≠ 0) (h : n < order) : (n : Zr) ≠ 0 := by
  intro hc
  rw [ZMod.natCast_eq_zero_iff] at hc
  exact h0 (Nat.eq_zero_of_dvd_of_lt hc h)

theorem two_lt_order : 2 < order := by
  have := two_pow_63_lt_order
  have h : 2 < 2 ^ 63 := by norm_num
  omega

theorem two_ne_zero_zr : (2 : Zr) ≠ 0 := by
  have := natCast_ne_zero_of_lt (n := 2) (by norm_num) two_lt_order
  simpa using this

theorem toyChallenge_ne : toyChallenge ≠ 0 := inv_ne_zero (pow_ne_zero _ two_ne_zero_zr)

end PoL
