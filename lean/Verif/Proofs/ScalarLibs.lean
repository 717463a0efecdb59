import Verif.Proofs.RawPol

/-!
# The two libraries of the specification meet the assumptions
-/

namespace PoL.Spec

open Raw

theorem order_pos' : (0 : ℤ) < order := by unfold order; norm_num

theorem emod_res (a : ℤ) : ((a % order : ℤ) : Zr) = a := by
  rw [← ZMod.intCast_mod a order]

theorem emod_red (a : ℤ) : Reduced (a % order) := ⟨Int.emod_nonneg _ order_pos'.ne', Int.emod_lt_of_pos _ order_pos'⟩

theorem emod_small {a : ℤ} (h0 : 0 ≤ a) (h : a < order) : a % order = a := Int.emod_eq_of_lt h0 h

theorem val_res {a : ℤ} (h : Reduced a) : ((a : Zr).val : ℤ) = a := by
  have := canon_res h
  exact this

theorem eagerLib_lawful : eagerLib.Lawful where
  plus_res a b := by simp [eagerLib]
  plus_small a b ha hb h := emod_small (by omega) h
  mul_res a b := by simp [eagerLib]
  modAdd_res a b := by simp [eagerLib]
  modAdd_red a b := emod_red _
  modSub_res a b := by simp [eagerLib]
  modSub_red a b := emod_red _
  inv_res a := res_canon _
  pow_res a n := by simp [eagerLib]
  equals_refl a := by simp [eagerLib]
  equals_res a b h := by simpa [eagerLib] using h
  bytes_red a _ := rfl
  int_red a _ := rfl

theorem lazyLib_lawful : lazyLib.Lawful where
  plus_res a b := by simp [lazyLib]
  plus_small a b ha hb h := rfl
  mul_res a b := by simp [lazyLib]
  modAdd_res a b := by simp [lazyLib]
  modAdd_red a b := emod_red _
  modSub_res a b := by simp [lazyLib]
  modSub_red a b := emod_red _
  inv_res a := res_canon _
  pow_res a n := by simp [lazyLib]
  equals_refl a := by simp [lazyLib]
  equals_res a b h := by
    have : a = b := by simpa [lazyLib] using h
    rw [this]
  bytes_red a h := by
    have : a.toNat = (a : Zr).val := by
      have := val_res h
      omega
    simp [lazyLib, zrBytes, this]
  int_red a h := by
    have := val_res h
    simp only [lazyLib, zrInt]
    rw [this]
    by_cases hb : a < 2 ^ 63
    · rw [if_pos hb, if_pos (by omega)]
    · rw [if_neg hb, if_neg (by omega)]

theorem emptyDb_reduced {G1 G2 GT : Type} [AddCommGroup G1] [Module Zr G1] [AddCommGroup G2] [Module Zr G2]
    [AddCommGroup GT] [Module Zr GT] (E : Curve G1 G2 GT) : StoredReduced E (fun _ => []) := by
  intro k v h
  cases h

end PoL.Spec
