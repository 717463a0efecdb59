import Verif.Spec.PolParams
import Verif.Props.Paths
import Verif.Props.Poe
import Verif.Props.Sum
import Verif.Props.Range

/-! Padding, and the parameters made by `GeneratePublicParams`. -/

set_option linter.unusedSectionVars false

namespace PoL.Pol
open Spec BP PP

variable {G1 G2 GT : Type} [AddCommGroup G1] [Module Zr G1] [AddCommGroup G2] [Module Zr G2]
  [AddCommGroup GT] [Module Zr GT] [DecidableEq G1] [DecidableEq GT]

theorem isPadded_unique {m M M' : ℕ} (h : IsPadded m M) (h' : IsPadded m M') : M = M' := by
  obtain ⟨⟨j, j1, -, rfl⟩, h2, h3⟩ := h
  obtain ⟨⟨j', j1', -, rfl⟩, h2', h3'⟩ := h'
  exact le_antisymm (h3 j' j1' h2') (h3' j j1 h2)

theorem padLoop_eq (d : ℕ) : ∀ m : ℕ, 1 ≤ m → m + d = 32768 → ∃ M : ℕ, padLoop (m : ℤ) = some (M : ℤ) ∧ IsPadded m M := by
  induction d with
  | zero =>
    intro m _ hm
    have hm : m = 2 ^ 15 := by omega
    refine ⟨m, ?_, ⟨⟨15, by omega, le_refl _, hm⟩, le_refl _, fun i _ h => h⟩⟩
    rw [padLoop]
    have : isPowerOfTwo (UInt16.ofNat ((m : ℤ) % 65536).toNat) = some true := by
      obtain ⟨b, h1, h2⟩ := Props.C33_decides_powers_of_two_partial (UInt16.ofNat ((m : ℤ) % 65536).toNat) (by rw [hm]; decide)
      rw [h1, h2.2 ⟨15, by omega, by omega, by rw [hm]; decide⟩]
    refine obind_step this ?_
    rfl
  | succ d ih =>
    intro m h1 hm
    have hmod : ((m : ℤ) % 65536).toNat = m := by
      rw [Int.emod_eq_of_lt (by omega) (by omega)]; rfl
    have hto : (UInt16.ofNat m).toNat = m := by
      rw [UInt16.toNat_ofNat']; exact Nat.mod_eq_of_lt (by omega)
    obtain ⟨b, hb, hb2⟩ := Props.C33_decides_powers_of_two_partial (UInt16.ofNat m) (by
      intro h0
      have := congrArg UInt16.toNat h0
      rw [hto] at this
      simp at this
      omega)
    rw [hto] at hb2
    rw [padLoop, hmod]
    cases b with
    | true =>
      obtain ⟨k, k1, k2, hk⟩ := hb2.1 rfl
      exact ⟨m, obind_step hb rfl, ⟨⟨k, k1, k2, hk⟩, le_refl _, fun i _ h => h⟩⟩
    | false =>
      obtain ⟨M, hM, hM1, hM2, hM3⟩ := ih (m + 1) (by omega) (by omega)
      refine ⟨M, obind_step hb (by push_cast at hM; simpa using hM), hM1, by omega, fun i hi hmi => hM3 i hi ?_⟩
      rcases Nat.lt_or_ge m (2 ^ i) with h | h
      · exact h
      · exfalso
        have he : m = 2 ^ i := by omega
        have h15 : i ≤ 15 := by
          by_contra hc
          have : 2 ^ 16 ≤ 2 ^ i := Nat.pow_le_pow_right (by omega) (by omega)
          omega
        simpa using hb2.2 ⟨i, hi, h15, he⟩

theorem padLoop_spec {m : ℕ} (h1 : 1 ≤ m) (h2 : m ≤ 32768) :
    ∃ M : ℕ, padLoop (m : ℤ) = some (M : ℤ) ∧ IsPadded m M := padLoop_eq (32768 - m) m h1 (by omega)

/-- The part of `GeneratePublicParams` that does not depend on the tree type. -/
theorem fits_of_parts (E : Curve G1 G2 GT) (α : Zr) (fanOut : UInt16) (L k : ℕ) (hL : 2 ≤ L) (hk1 : 2 ≤ k) (hk2 : k ≤ 15)
    (hk : fanOut.toNat + 1 = 2 ^ k) (M : ℕ) (hM : IsPadded (L - 1) M) (id2Path : Str → Option (List ℕ)) :
    ∃ pp, (do
      let poePP ← Poe.newPublicParams E α (fanOut + 2).toNat ((M : ℤ)).toNat
      let n := (fanOut + 1).toNat
      let SAPP ← Sum.newPublicParams E n
      let RPPP ← newRangeProofPublicParams E n
      let F ← poePP.vc.G1s[n]?
      let Gs := poePP.vc.G1s.take n
      return (id2Path,
        ({ fanout := fanOut.toNat
           PPPP := poePP.vc
           SAPP := { SAPP with F := F, Gs := Gs }
           RPPP := { RPPP with F := F, Gs := Gs }
           POEPP := poePP } : PublicParams G1 G2 GT))) = some (id2Path, pp) ∧ Fits E α fanOut.toNat L pp := by
  have hpow : 2 ^ k ≤ 2 ^ 15 := Nat.pow_le_pow_right (by omega) hk2
  have e2 : (fanOut + 2).toNat = fanOut.toNat + 2 := by
    rw [UInt16.toNat_add]; exact Nat.mod_eq_of_lt (by simp; omega)
  have e1 : (fanOut + 1).toNat = fanOut.toNat + 1 := by
    rw [UInt16.toNat_add]; exact Nat.mod_eq_of_lt (by simp; omega)
  obtain ⟨poe, hp1, hp2, hp3, hp4⟩ := Props.C24_new_params E α (fanOut + 2).toNat M
  obtain ⟨sa, hs1, hs2⟩ := Props.C19_new_params_sized E (n := (fanOut + 1).toNat) (by omega)
  obtain ⟨rp, hr1, hr2, hr3, hr4⟩ := Props.C16_new_params_sizes E (fanOut + 1).toNat
  have hlen : poe.vc.G1s[(fanOut + 1).toNat]? = some (α ^ (fanOut.toNat + 2) • E.genG1) := by
    rw [hp2, e1, e2]
    exact new_G1s_lt E α _ (by omega)
  refine ⟨_, obind_step hp1 (obind_step hs1 (obind_step hr1 (obind_step hlen rfl))), ?_⟩
  rw [e1] at hs2 hr2 hr3 hr4 hlen
  exact
    { fanout := rfl
      depth := hL
      power := ⟨k, hk1, hk2, hk⟩
      PPPP := by rw [e2] at hp2; exact hp2
      sa_Gs := by rw [e1]
      sa_F := hlen
      sa_H := hs2.hs
      sa_b := hs2.b_eq
      sa_B := hs2.B_eq
      rp_Gs := by rw [e1]
      rp_F := hlen
      rp_Hs := hr3
      rp_Fs := hr4
      poe_vc := rfl
      poe_size := ⟨M, hM, hp3, hp4⟩ }

end PoL.Pol
