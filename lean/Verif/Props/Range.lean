import Verif.Proofs.Range
import Verif.Proofs.RangeSound
import Verif.Props.IterReduce
import Verif.Props.InnerProd

/-!
# C16–C18: range proofs (`bp/range.go`)
-/

set_option linter.unusedSectionVars false

namespace PoL.Props

open BP

variable {G1 G2 GT : Type} [AddCommGroup G1] [Module Zr G1] [AddCommGroup G2] [Module Zr G2]
  [AddCommGroup GT] [Module Zr GT] [DecidableEq G1]

/-- **C16.** For `2^k` values below `2^63` (`1 ≤ k ≤ 15`), any blinding factor and randomness, and `V` their
commitment: a proof is computed; and unless one of its inverted challenges is zero, `ProveRange` returns it and
`VerifyRange` accepts it. -/
theorem C16_range_proof_complete (E : Curve G1 G2 GT) (hE : E.Lawful) (pp : RPPP G1) (k : ℕ)
    (hk1 : 1 ≤ k) (hk2 : k ≤ 15) (hGs : pp.Gs.length = 2 ^ k) (hHs : pp.Hs.length = 2 ^ k * 64)
    (hFs : pp.Fs.length = 2 ^ k * 64) (rnd : RangeRand) (hrnd : rnd.WellFormed (2 ^ k)) (v : List Zr)
    (hv : v.length = 2 ^ k) (hrange : ∀ x ∈ v, x.val < 2 ^ 63) (r : Zr) (V : G1)
    (hV : V = r • pp.F + dot v pp.Gs) :
    ∃ rp ipaPP, proveRangeUnchecked E pp rnd V v r = some (rp, ipaPP) ∧
      ((∀ x ∈ rangeChallenges E pp V rp ipaPP, x ≠ 0) →
        proveRange E pp rnd V v r = some rp ∧ verifyRange E pp rp V = some true) :=
  range_complete E hE pp k ⟨hk1, hk2, hGs, by omega, by omega⟩ rnd hrnd v hv hrange r V hV

/-- The parameters created by `NewRangeProofPublicParams` have the sizes required by C16. -/
theorem C16_new_params_sizes (E : Curve G1 G2 GT) (n : ℕ) : ∃ pp, newRangeProofPublicParams E n = some pp ∧
    pp.Gs.length = n ∧ pp.Hs.length = n * 64 ∧ pp.Fs.length = n * 64 := by
  refine ⟨_, rfl, ?_, ?_, ?_⟩ <;> simp [randGenVec]

theorem toy_irChallenges_ne (d : Bytes) (Δ : List (Zr × Zr × Zr)) :
    ∀ V : Zr, ∀ x ∈ irChallenges toyCurve d V Δ, x ≠ 0 := by
  induction Δ with
  | nil => intro V x h; simp [irChallenges] at h
  | cons t Δ ih =>
    obtain ⟨A, B, V'⟩ := t
    intro V x h
    simp only [irChallenges, toy_irChallenge, Option.getD_some, List.mem_cons] at h
    rcases h with rfl | h
    · exact toyChallenge_ne
    · exact ih V' x h

/-- On the toy curve no challenge is zero. -/
theorem toy_rangeChallenges_ne (pp : RPPP Zr) (V : Zr) (rp : RangeProof Zr) (ipaPP : BP.PP Zr) :
    ∀ x ∈ rangeChallenges toyCurve pp V rp ipaPP, x ≠ 0 := by
  intro x hx
  unfold rangeChallenges at hx
  split at hx
  · next y rdx _ _ =>
    have hY : rangeY toyCurve pp rp.Q rp.R y 0 = some toyChallenge := toy_fe
    rw [hY, List.mem_append, List.mem_cons] at hx
    rcases hx with (rfl | hx) | hx
    · exact toyChallenge_ne
    · exact toy_irChallenges_ne _ _ _ x hx
    · exact toy_ippChallenges _ _ x hx
  · simp at hx

/-- C16 gives accepted proofs: two values, one of them the largest possible. -/
example : ∃ (pp : RPPP Zr) (rp : RangeProof Zr) (V : Zr), verifyRange toyCurve pp rp V = some true := by
  obtain ⟨pp, -, h1, h2, h3⟩ := C16_new_params_sizes toyCurve 2
  have hr : ∀ x ∈ [((2 ^ 63 - 1 : ℕ) : Zr), 0], x.val < 2 ^ 63 := by
    intro x hx
    rcases List.mem_cons.1 hx with rfl | hx
    · rw [ZMod.val_natCast_of_lt (lt_of_lt_of_le (by norm_num) two_pow_63_lt_order.le)]; norm_num
    · rw [List.mem_singleton.1 hx]; simp
  obtain ⟨rp, ipaPP, -, h⟩ := C16_range_proof_complete toyCurve toyCurve_lawful pp 1 le_rfl (by norm_num) h1 h2 h3
    { w := [3, 4], rPrime := 5, ν := 6, η := 7, s := List.replicate 128 1, t := List.replicate 126 2, τ1 := 8, τ2 := 9 }
    ⟨rfl, by simp, by simp⟩ [((2 ^ 63 - 1 : ℕ) : Zr), 0] rfl hr 11 _ rfl
  exact ⟨pp, rp, _, (h (toy_rangeChallenges_ne _ _ _ _)).2⟩

/-! ## C17 -/

theorem rangeBits_length_of_out_of_range (m : ℕ) : ∀ v : List Zr,
    v.length * m ≤ (rangeBits m v).length ∧
      ((∃ x ∈ v, 2 ^ m ≤ x.val) → v.length * m < (rangeBits m v).length)
  | [] => by simp [rangeBits, intsToZr, Vec.vbits]
  | a :: v => by
    obtain ⟨h1, h2⟩ := rangeBits_length_of_out_of_range m v
    rw [rangeBits_cons, List.length_append, List.length_map, List.length_cons, Nat.succ_mul]
    have hge : m ≤ (bitsPad m a.val).length := by
      rw [bitsPad, List.length_append, List.length_replicate]; omega
    have hgt : 2 ^ m ≤ a.val → m < (bitsPad m a.val).length := by
      intro h
      rw [bitsPad, List.length_append, List.length_replicate]
      have := mt (bitsLoop_length_le_iff m a.val).1 (by omega)
      omega
    refine ⟨by omega, ?_⟩
    rintro ⟨x, hx, hx2⟩
    rcases List.mem_cons.1 hx with rfl | hx
    · have := hgt hx2; omega
    · have := h2 ⟨x, hx, hx2⟩; omega

/-- **C17.** If `ProveRange` returns at all, with parameters of the right sizes, then the number of values
is the one the parameters are for and every value is below `2^63`, whatever the other inputs. -/
theorem C17_prover_refuses_out_of_range (E : Curve G1 G2 GT) (pp : RPPP G1) (n : ℕ)
    (hHs : pp.Hs.length = n * 64) (rnd : RangeRand) (hrnd : rnd.WellFormed n)
    (V : G1) (v : List Zr) (r : Zr) (rp : RangeProof G1) (h : proveRange E pp rnd V v r = some rp) :
    v.length = n ∧ ∀ x ∈ v, x.val < 2 ^ 63 := by
  have h1 : ∃ q, proveRangeUnchecked E pp rnd V v r = some q := by
    rw [proveRange] at h
    cases hq : proveRangeUnchecked E pp rnd V v r with
    | none => rw [hq] at h; simp at h
    | some q => exact ⟨q, rfl⟩
  obtain ⟨q, h1⟩ := h1
  unfold proveRangeUnchecked at h1
  obtain ⟨_, -, h1⟩ := obind_elim h1
  obtain ⟨_, -, h1⟩ := obind_elim h1
  obtain ⟨_, -, h1⟩ := obind_elim h1
  obtain ⟨_, -, h1⟩ := obind_elim h1
  obtain ⟨_, h5, h1⟩ := obind_elim h1
  obtain ⟨_, -, h1⟩ := obind_elim h1
  obtain ⟨_, -, h1⟩ := obind_elim h1
  obtain ⟨_, -, h1⟩ := obind_elim h1
  obtain ⟨_, -, h1⟩ := obind_elim h1
  obtain ⟨_, -, h1⟩ := obind_elim h1
  obtain ⟨_, -, h1⟩ := obind_elim h1
  obtain ⟨_, h12, h1⟩ := obind_elim h1
  clear h1
  have hlen : v.length = n := by
    by_contra hne
    rw [Vec.add] at h12
    simp [hrnd.1] at h12
    omega
  refine ⟨hlen, fun x hx => ?_⟩
  by_contra hge
  have hb := (rangeBits_length_of_out_of_range 63 v).2 ⟨x, hx, by omega⟩
  rw [Gv.mulV, if_pos] at h5
  · simp at h5
  · have : (intsToZr (Vec.vbits v 63)).length = (rangeBits 63 v).length := rfl
    rw [List.length_append, this, hrnd.1]
    omega

/-- `ProveRange` panics on `(2^63, 0)`; its sibling `(2^63 - 1, 0)` is proved in the example after C16. -/
example (pp : RPPP Zr) (hHs : pp.Hs.length = 2 * 64) (V r : Zr) : proveRange toyCurve pp
    { w := [3, 4], rPrime := 5, ν := 6, η := 7, s := List.replicate 128 1, t := List.replicate 126 2, τ1 := 8, τ2 := 9 }
    V [((2 ^ 63 : ℕ) : Zr), 0] r = none := by
  cases h : proveRange toyCurve pp _ V [((2 ^ 63 : ℕ) : Zr), 0] r with
  | none => rfl
  | some rp =>
    have := (C17_prover_refuses_out_of_range toyCurve pp 2 hHs _ ⟨rfl, by simp, by simp⟩ V _ r rp h).2
      ((2 ^ 63 : ℕ) : Zr) (by simp)
    rw [ZMod.val_natCast_of_lt two_pow_63_lt_order] at this
    omega

/-! ## C18 -/

open Finset in
/-- **C18.** If the committed vectors satisfy the verifier's equation for two values of `x`, all reduction
challenges from a two-element set, `64·2^k` values of `y0` and three values of `y1`, then every bit entry is 0 or
1, the other vector is its complement, every value is the sum of its 63 bits, and so it is below `2^63`. -/
theorem C18_range_equation_forces_bits (k : ℕ) (qH qF v w : ℕ → Zr) (x₁ x₂ α β : Zr) (S0 S1 : Finset Zr)
    (hx : x₁ ≠ x₂) (hαβ : α ≠ β) (hS0 : 2 ^ k * 64 ≤ S0.card) (hS1 : 3 ≤ S1.card)
    (h : ∀ x, (x = x₁ ∨ x = x₂) → ∀ r : List Zr, r.length = k → (∀ t ∈ r, t = α ∨ t = β) →
      ∀ y0 ∈ S0, ∀ y1 ∈ S1, rangeEquation (2 ^ k) qH qF v w x r y0 y1) :
    (∀ i < 2 ^ k * 63, (qH i = 0 ∨ qH i = 1) ∧ qF i = 1 - qH i) ∧
    (∀ i < 2 ^ k, v i = ∑ j ∈ range 63, 2 ^ j * qH (i * 63 + j) ∧ (v i).val < 2 ^ 63) := by
  obtain ⟨h1, h2⟩ := range_equation_sound k qH qF v w x₁ x₂ α β S0 S1 hx hαβ hS0 hS1 h
  refine ⟨h1, fun i hi => ⟨(h2 i hi).1, ?_⟩⟩
  obtain ⟨N, hN, hs⟩ := bits_sum_nat (fun j => qH (i * 63 + j)) 63 (fun j hj => (h1 (i * 63 + j) (by
    have : i + 1 ≤ 2 ^ k := hi
    nlinarith)).1)
  rw [(h2 i hi).1, hs, ZMod.val_natCast_of_lt (lt_trans hN two_pow_63_lt_order)]
  exact hN

open Finset in
/-- The equation is satisfied, for all challenges, by honest bit vectors, so C18's hypotheses can be met. -/
theorem C18_honest_vectors_satisfy_equation (n : ℕ) (qH w : ℕ → Zr)
    (hb : ∀ i < n * 63, qH i = 0 ∨ qH i = 1) (hw : ∀ i < n, qH (n * 63 + i) = w i) (x : Zr) (r : List Zr)
    (y0 y1 : Zr) :
    rangeEquation n qH (fun i => if i < n * 63 then 1 - qH i else 0)
      (fun i => ∑ j ∈ range 63, 2 ^ j * qH (i * 63 + j)) w x r y0 y1 := by
  unfold rangeEquation
  have e1 : ∑ i ∈ range (n * 63), (qH i + y1) * (y1 ^ 2 * (2 ^ (i % 63) * bitMonomial r (i / 63))
        + (y1 + if i < n * 63 then 1 - qH i else 0) * y0 ^ i)
      = ∑ i ∈ range (n * 63), (y1 ^ 2 * (qH i * (2 ^ (i % 63) * bitMonomial r (i / 63)))
        + y1 ^ 3 * (2 ^ (i % 63) * bitMonomial r (i / 63)) + (y1 ^ 2 + y1) * y0 ^ i) := by
    apply Finset.sum_congr rfl
    intro i hi
    rw [if_pos (Finset.mem_range.1 hi)]
    rcases hb i (Finset.mem_range.1 hi) with h | h <;> rw [h] <;> ring
  have e2 : ∑ i ∈ range n, qH (n * 63 + i) * (y1 ^ 2 * (x * bitMonomial r i)
        + (if n * 63 + i < n * 63 then 1 - qH (n * 63 + i) else 0) * y0 ^ (n * 63 + i))
      = ∑ i ∈ range n, y1 ^ 2 * (x * w i * bitMonomial r i) := by
    apply Finset.sum_congr rfl
    intro i hi
    rw [if_neg (by omega), hw i (Finset.mem_range.1 hi)]
    ring
  have e3 : ∑ i ∈ range (n * 63), qH i * (2 ^ (i % 63) * bitMonomial r (i / 63))
      = ∑ i ∈ range n, (∑ j ∈ range 63, 2 ^ j * qH (i * 63 + j)) * bitMonomial r i := by
    rw [sum_range_mul]
    apply Finset.sum_congr rfl
    intro i _
    rw [Finset.sum_mul]
    apply Finset.sum_congr rfl
    intro j hj
    have hj' := Finset.mem_range.1 hj
    have h1 : (i * 63 + j) % 63 = j := by omega
    have h2 : (i * 63 + j) / 63 = i := by omega
    rw [h1, h2]
    ring
  rw [e1, e2, Finset.sum_add_distrib, Finset.sum_add_distrib, ← Finset.mul_sum, ← Finset.mul_sum,
    ← Finset.mul_sum, ← Finset.mul_sum, e3]
  simp only [add_mul, Finset.sum_add_distrib]
  ring

end PoL.Props
