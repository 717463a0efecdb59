import Mathlib.NumberTheory.LucasPrimality
import Mathlib.Tactic.NormNum.Prime

/-!
# The group order of BN254 is prime

`common/math.go:17-18` (`c = math.Curves[1]; GroupOrder = c.GroupOrder`) fixes the curve; its scalar
modulus is the number whose 64-bit limbs appear in `common/math.go:483-492`.  All scalars of the code
live in this field.  Primality is proved by Pratt certificates, evaluated by the kernel.
-/

namespace PoL

/-- Square-and-multiply: `acc * b^e % m`, at most `fuel` bits of `e`. -/
def powModAux (m : ℕ) : ℕ → ℕ → ℕ → ℕ → ℕ
  | 0, _, _, acc => acc % m
  | fuel + 1, b, e, acc =>
    if e = 0 then acc % m
    else powModAux m fuel (b * b % m) (e / 2) (if e % 2 = 1 then acc * b % m else acc)

theorem powModAux_eq (m : ℕ) : ∀ fuel b e acc, e < 2 ^ fuel →
    powModAux m fuel b e acc = acc * b ^ e % m
  | 0, b, e, acc, h => by
    have : e = 0 := by simpa using h
    simp [powModAux, this]
  | fuel + 1, b, e, acc, h => by
    unfold powModAux
    split
    · next h0 => simp [h0]
    · have hlt : e / 2 < 2 ^ fuel := by
        rw [pow_succ] at h; omega
      rw [powModAux_eq m fuel _ _ _ hlt]
      have hpow : (b * b % m) ^ (e / 2) % m = b ^ (2 * (e / 2)) % m := by
        rw [← Nat.pow_mod, pow_mul, pow_two]
      have key : ∀ x, x * (b * b % m) ^ (e / 2) % m = x * b ^ (2 * (e / 2)) % m := by
        intro x
        rw [Nat.mul_mod, hpow, ← Nat.mul_mod]
      split
      · next h1 =>
        have he : b ^ e = b * b ^ (2 * (e / 2)) := by
          rw [← pow_succ']; congr 1; omega
        rw [key, he, Nat.mul_mod, Nat.mod_mod, ← Nat.mul_mod, Nat.mul_assoc]
      · next h1 =>
        have he : 2 * (e / 2) = e := by omega
        rw [key, he]

/-- Lucas/Pratt criterion in a form the kernel can evaluate. -/
theorem prime_of_cert (p a : ℕ) (fs : List ℕ) (hfs : ∀ q ∈ fs, q.Prime) (hp : 1 < p)
    (hlt : p < 2 ^ 256) (hprod : fs.prod = p - 1)
    (h1 : powModAux p 256 a (p - 1) 1 = 1)
    (h2 : ∀ q ∈ fs, powModAux p 256 a ((p - 1) / q) 1 ≠ 1) : p.Prime := by
  have conv : ∀ e, e < 2 ^ 256 → (((a : ZMod p)) ^ e = 1 ↔ powModAux p 256 a e 1 = 1) := by
    intro e he
    rw [powModAux_eq _ _ _ _ _ he, one_mul]
    have : ((a : ZMod p)) ^ e = ((a ^ e : ℕ) : ZMod p) := by push_cast; rfl
    rw [this, ← Nat.cast_one, ZMod.natCast_eq_natCast_iff, Nat.ModEq, Nat.mod_eq_of_lt hp]
  refine lucas_primality p (a : ZMod p) ((conv _ (by omega)).2 h1) ?_
  intro q hq hdvd hone
  have hmem : ∃ q' ∈ fs, q ∣ q' := by
    rw [← hprod] at hdvd
    exact (Nat.Prime.prime hq).dvd_prod_iff.1 hdvd
  obtain ⟨q', hq', hd⟩ := hmem
  have : q = q' := (Nat.prime_dvd_prime_iff_eq hq (hfs _ hq')).1 hd
  subst this
  exact h2 q hq' ((conv _ (lt_of_le_of_lt (Nat.div_le_self _ _) (by omega))).1 hone)

theorem prime_12048837557 : Nat.Prime 12048837557 := by
  refine prime_of_cert _ 2 [2, 2, 7, 7, 661, 93001] ?_ (by norm_num) (by norm_num) (by norm_num)
    (by decide +kernel) (by decide +kernel)
  simp only [List.mem_cons, List.not_mem_nil, or_false, forall_eq_or_imp, forall_eq]
  norm_num

theorem prime_5156902474397 : Nat.Prime 5156902474397 := by
  refine prime_of_cert _ 2 [2, 2, 107, 12048837557] ?_ (by norm_num) (by norm_num) (by norm_num)
    (by decide +kernel) (by decide +kernel)
  simp only [List.mem_cons, List.not_mem_nil, or_false, forall_eq_or_imp, forall_eq]
  exact ⟨by norm_num, by norm_num, by norm_num, prime_12048837557⟩

theorem prime_1670836401704629 : Nat.Prime 1670836401704629 := by
  refine prime_of_cert _ 2 [2, 2, 3, 3, 3, 3, 5156902474397] ?_ (by norm_num) (by norm_num)
    (by norm_num) (by decide +kernel) (by decide +kernel)
  simp only [List.mem_cons, List.not_mem_nil, or_false, forall_eq_or_imp, forall_eq]
  refine ⟨?_, ?_, ?_, ?_, ?_, ?_, prime_5156902474397⟩ <;> norm_num

theorem prime_405928799 : Nat.Prime 405928799 := by
  refine prime_of_cert _ 22 [2, 11, 3691, 4999] ?_ (by norm_num) (by norm_num)
    (by norm_num) (by decide +kernel) (by decide +kernel)
  simp only [List.mem_cons, List.not_mem_nil, or_false, forall_eq_or_imp, forall_eq]
  norm_num

theorem prime_639533339 : Nat.Prime 639533339 := by
  refine prime_of_cert _ 2 [2, 229, 853, 1637] ?_ (by norm_num) (by norm_num)
    (by norm_num) (by decide +kernel) (by decide +kernel)
  simp only [List.mem_cons, List.not_mem_nil, or_false, forall_eq_or_imp, forall_eq]
  norm_num

theorem prime_65865678001877903 : Nat.Prime 65865678001877903 := by
  refine prime_of_cert _ 5 [2, 83, 379, 1637, 639533339] ?_ (by norm_num) (by norm_num)
    (by norm_num) (by decide +kernel) (by decide +kernel)
  simp only [List.mem_cons, List.not_mem_nil, or_false, forall_eq_or_imp, forall_eq]
  exact ⟨by norm_num, by norm_num, by norm_num, by norm_num, prime_639533339⟩

theorem prime_13818364434197438864469338081 : Nat.Prime 13818364434197438864469338081 := by
  refine prime_of_cert _ 3 [2, 2, 2, 2, 2, 5, 823, 1593227, 65865678001877903] ?_ (by norm_num)
    (by norm_num) (by norm_num) (by decide +kernel) (by decide +kernel)
  simp only [List.mem_cons, List.not_mem_nil, or_false, forall_eq_or_imp, forall_eq]
  refine ⟨?_, ?_, ?_, ?_, ?_, ?_, ?_, ?_, prime_65865678001877903⟩ <;> norm_num

/-- The BN254 scalar modulus (`GroupOrder`, `common/math.go:18`; its limbs are in
`common/math.go:483-492`). -/
def order : ℕ := 21888242871839275222246405745257275088548364400416034343698204186575808495617

theorem order_prime : Nat.Prime order := by
  unfold order
  refine prime_of_cert _ 5 (List.replicate 28 2 ++ [3, 3, 13, 29, 983, 11003, 237073, 405928799,
    1670836401704629, 13818364434197438864469338081]) ?_ (by norm_num) (by norm_num) (by
      decide +kernel) (by decide +kernel) (by decide +kernel)
  intro q hq
  rw [List.mem_append] at hq
  rcases hq with hq | hq
  · rw [List.eq_of_mem_replicate hq]; norm_num
  · simp only [List.mem_cons, List.not_mem_nil, or_false] at hq
    rcases hq with rfl | rfl | rfl | rfl | rfl | rfl | rfl | rfl | rfl | rfl
    · norm_num
    · norm_num
    · norm_num
    · norm_num
    · norm_num
    · norm_num
    · norm_num
    · exact prime_405928799
    · exact prime_1670836401704629
    · exact prime_13818364434197438864469338081

instance : Fact order.Prime := ⟨order_prime⟩

theorem order_eq_limbs : order = 4891460686036598785 + 2896914383306846353 * 2 ^ 64
    + 13281191951274694749 * 2 ^ 128 + 3486998266802970665 * 2 ^ 192 := by decide +kernel

theorem two_pow_63_lt_order : 2 ^ 63 < order := by decide +kernel
theorem two_pow_127_lt_order : 2 ^ 127 < order := by decide +kernel
theorem two_pow_253_lt_order : 2 ^ 253 < order := by decide +kernel
theorem order_lt_two_pow_254 : order < 2 ^ 254 := by decide +kernel

attribute [irreducible] order

end PoL
