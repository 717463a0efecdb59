import Verif.Model.Pol
import Verif.Proofs.Vec
import Verif.Spec.Toy

/-!
# C58: the verdict does not depend on the scratch fields of a proof

`VerifyRange`, the sum argument's `Verify` and `Equalities.Verify` write the statement (fields `C` and `P`) into the
inner-product proof they are given.
-/

set_option linter.unusedSectionVars false

namespace PoL.Props

open _root_.PoL.BP

variable {G1 G2 GT : Type} [AddCommGroup G1] [Module Zr G1] [AddCommGroup G2] [Module Zr G2]
  [AddCommGroup GT] [Module Zr GT] [DecidableEq G1] [DecidableEq GT]

/-- The same range proof, up to the statement stored in its inner-product proof. -/
def SameRange (rp rp' : RangeProof G1) : Prop :=
  ∃ C P, rp' = { rp with ipp := { rp.ipp with C := C, P := P } }

/-- The same sum argument, up to the statement stored in its inner-product proof. -/
def SameSum (p p' : Sum.Proof G1) : Prop := ∃ C P, p' = { p with π := { p.π with C := C, P := P } }

/-- The same equality proof, up to the statement stored in its inner-product proof. -/
def SameEq (p p' : Poe.AggregatedProof G1) : Prop := ∃ C P, p' = { p with IPP := { p.IPP with C := C, P := P } }

/-- The same liability proof, up to the statements stored in its inner-product proofs. -/
def SameLiability (lp lp' : Pol.LiabilityProof G1) : Prop :=
  ∃ rps sa eq, lp' = { lp with rangeProofs := rps, sumArgumentProof := sa, equalityProof := eq } ∧
    List.Forall₂ SameRange lp.rangeProofs rps ∧ SameSum lp.sumArgumentProof sa ∧ SameEq lp.equalityProof eq

theorem map_bind_congr {α β γ : Type} {x : Option α} {f g : α → Option β} {p : β → γ}
    (h : ∀ a, (f a).map p = (g a).map p) : (x >>= f).map p = (x >>= g).map p := by
  cases x with
  | none => rfl
  | some a => exact h a

theorem map_ite_congr {β γ : Type} {c : Prop} [Decidable c] {p : β → γ} {a b a' b' : Option β}
    (h : a.map p = a'.map p) (h' : b.map p = b'.map p) :
    (if c then a else b).map p = (if c then a' else b').map p := by
  split
  · exact h
  · exact h'

theorem ite_elim {β : Type} {c : Prop} [Decidable c] {a b r : β} (h : (if c then a else b) = r) : a = r ∨ b = r := by
  split at h
  · exact .inl h
  · exact .inr h

theorem ite_congr2 {β : Type} {c : Prop} [Decidable c] {a b a' b' : β} (h : a = a') (h' : b = b') :
    (if c then a else b) = if c then a' else b' := by rw [h, h']

theorem obind_congr {α β : Type} {x : Option α} {f g : α → Option β} (h : ∀ a, f a = g a) :
    (x >>= f) = (x >>= g) := by rw [funext h]

/-- `VerifyRange` gives the same verdict whatever statement is stored in the proof. -/
theorem C58_range (E : Curve G1 G2 GT) (pp : RPPP G1) (rp rp' : RangeProof G1) (V : G1) (h : SameRange rp rp') :
    verifyRange E pp rp' V = verifyRange E pp rp V := by
  obtain ⟨C, P, rfl⟩ := h
  unfold verifyRange verifyRangeState
  refine map_bind_congr fun x => ?_
  refine map_bind_congr fun ppRdx => ?_
  refine map_bind_congr fun r => ?_
  cases r with
  | none => rfl
  | some xu => rfl

/-- `VerifyRange` changes nothing but that statement; verifying again gives the same verdict. -/
theorem C58_range_twice (E : Curve G1 G2 GT) (pp : RPPP G1) (rp rp' : RangeProof G1) (V : G1) (ok : Bool)
    (h : verifyRangeState E pp rp V = some (ok, rp')) :
    SameRange rp rp' ∧ verifyRange E pp rp' V = some ok := by
  have hs : SameRange rp rp' := by
    unfold verifyRangeState at h
    obtain ⟨x, -, h⟩ := obind_elim h
    obtain ⟨ppRdx, -, h⟩ := obind_elim h
    obtain ⟨r, -, h⟩ := obind_elim h
    cases r with
    | none =>
      obtain ⟨-, rfl⟩ := Prod.mk.inj (Option.some.inj h)
      exact ⟨rp.ipp.C, rp.ipp.P, rfl⟩
    | some xu =>
      obtain ⟨f, -, h⟩ := obind_elim h
      obtain ⟨d, -, h⟩ := obind_elim h
      obtain ⟨y0, -, h⟩ := obind_elim h
      obtain ⟨y1, -, h⟩ := obind_elim h
      obtain ⟨z, -, h⟩ := obind_elim h
      obtain ⟨Fp, -, h⟩ := obind_elim h
      obtain ⟨ipaPP, -, h⟩ := obind_elim h
      obtain ⟨P, -, h⟩ := obind_elim h
      obtain ⟨b, -, h⟩ := obind_elim h
      cases b with
      | false =>
        obtain ⟨-, rfl⟩ := Prod.mk.inj (Option.some.inj h)
        exact ⟨rp.c, P, rfl⟩
      | true =>
        obtain ⟨b1, -, h⟩ := obind_elim h
        obtain ⟨b2, -, h⟩ := obind_elim h
        obtain ⟨s, -, h⟩ := obind_elim h
        obtain ⟨b3, -, h⟩ := obind_elim h
        obtain ⟨-, rfl⟩ := Prod.mk.inj (Option.some.inj h)
        exact ⟨rp.c, P, rfl⟩
  refine ⟨hs, ?_⟩
  rw [C58_range E pp rp rp' V hs, verifyRange, h]
  rfl

/-- The sum argument's `Verify` and `VerifyAggregated`. -/
theorem C58_sum (E : Curve G1 G2 GT) (pp : Sum.PP G1) (p p' : Sum.Proof G1) (a : Sum.Argument G1) (V : List G1)
    (h : SameSum p p') :
    p'.verify E pp a = p.verify E pp a ∧ p'.verifyAggregated E pp V = p.verifyAggregated E pp V := by
  obtain ⟨C, P, rfl⟩ := h
  exact ⟨rfl, rfl⟩

theorem C58_sum_twice (E : Curve G1 G2 GT) (pp : Sum.PP G1) (p p' : Sum.Proof G1) (a : Sum.Argument G1) (ok : Bool)
    (h : p.verifyState E pp a = some (ok, p')) : SameSum p p' ∧ p'.verify E pp a = some ok := by
  have hs : SameSum p p' := by
    unfold Sum.Proof.verifyState at h
    obtain ⟨x, -, h⟩ := obind_elim h
    obtain ⟨ipaPP, -, h⟩ := obind_elim h
    obtain ⟨b, -, h⟩ := obind_elim h
    obtain ⟨-, rfl⟩ := Prod.mk.inj (Option.some.inj h)
    exact ⟨_, _, rfl⟩
  refine ⟨hs, ?_⟩
  rw [(C58_sum E pp p p' a [] hs).1, Sum.Proof.verify, h]
  rfl

/-- `Equalities.Verify`. -/
theorem C58_equalities (E : Curve G1 G2 GT) (e : Poe.Equalities G1 G2 GT) (p p' : Poe.AggregatedProof G1)
    (h : SameEq p p') : e.verify E p' = e.verify E p := by
  obtain ⟨C, P, rfl⟩ := h
  unfold Poe.Equalities.verify Poe.Equalities.verifyState
  iterate 17 refine map_bind_congr fun _ => ?_
  refine map_ite_congr ?_ ?_ <;> rfl

theorem C58_equalities_twice (E : Curve G1 G2 GT) (e : Poe.Equalities G1 G2 GT) (p p' : Poe.AggregatedProof G1)
    (ok : Bool) (h : e.verifyState E p = some (ok, p')) : SameEq p p' ∧ e.verify E p' = some ok := by
  have hs : SameEq p p' := by
    unfold Poe.Equalities.verifyState at h
    iterate 17 obtain ⟨_, -, h⟩ := obind_elim h
    rcases ite_elim h with h | h
    · obtain ⟨-, rfl⟩ := Prod.mk.inj (Option.some.inj h)
      exact ⟨p.IPP.C, p.IPP.P, rfl⟩
    · iterate 7 obtain ⟨_, -, h⟩ := obind_elim h
      obtain ⟨-, rfl⟩ := Prod.mk.inj (Option.some.inj h)
      exact ⟨_, _, rfl⟩
  refine ⟨hs, ?_⟩
  rw [C58_equalities E e p p' hs, Poe.Equalities.verify, h]
  rfl

open Pol in
theorem verifyLoop_same (E : Curve G1 G2 GT) (lp lp' : LiabilityProof G1) (pp : PublicParams G1 G2 GT)
    (h : SameLiability lp lp') (n : ℕ) : ∀ rest i err, lp'.verifyLoop E pp n i rest err = lp.verifyLoop E pp n i rest err := by
  obtain ⟨rps, sa, eq, rfl, hr, -, -⟩ := h
  intro rest
  induction rest with
  | zero => intro i err; rfl
  | succ rest ih =>
    intro i err
    unfold LiabilityProof.verifyLoop
    have hlen := hr.length_eq
    change (if i + 1 < n ∧ lp.V.length ≤ i + 1 then none else rps[i]? >>= _) = _
    by_cases hi : i < lp.rangeProofs.length
    · rw [List.getElem?_eq_getElem hi, List.getElem?_eq_getElem (show i < rps.length by omega)]
      have hrel : SameRange lp.rangeProofs[i] (rps[i]'(by omega)) := List.Forall₂.get hr hi (by omega)
      split
      · rfl
      · change (lp.V[i]? >>= _) = (lp.V[i]? >>= _)
        refine obind_congr fun V => ?_
        change (verifyRange E pp.RPPP (rps[i]'(by omega)) V >>= _) = (verifyRange E pp.RPPP lp.rangeProofs[i] V >>= _)
        rw [C58_range E pp.RPPP _ _ V hrel]
        refine obind_congr fun ok => ite_congr2 (obind_congr fun b => ite_congr2 rfl (ih _ _)) (ite_congr2 ?_ (ih _ _))
        exact obind_congr fun b => ite_congr2 rfl (ih _ _)
    · rw [List.getElem?_eq_none (show rps.length ≤ i by omega), List.getElem?_eq_none (show lp.rangeProofs.length ≤ i by omega)]
      rfl

/-- `LiabilityProof.Verify` gives the same verdict whatever statements are stored in the inner-product proofs; in
particular verifying has no influence on a later verification. -/
theorem C58_liability (E : Curve G1 G2 GT) (lp lp' : Pol.LiabilityProof G1) (pp : Pol.PublicParams G1 G2 GT)
    (id : Str) (V W : G1) (id2path : Str → Option (List ℕ)) (h : SameLiability lp lp') :
    lp'.verify E pp id V W id2path = lp.verify E pp id V W id2path := by
  have hloop := verifyLoop_same E lp lp' pp h
  obtain ⟨rps, sa, eq, rfl, -, hsa, heq⟩ := h
  unfold Pol.LiabilityProof.verify
  simp only [hloop, (C58_sum E pp.SAPP _ _ ⟨lp.V.headD 0⟩ lp.V hsa).2, C58_equalities E _ _ _ heq]

/-- Example: two different range proofs that are the same up to the stored statement. -/
example : ∃ rp rp' : RangeProof Zr, rp ≠ rp' ∧ SameRange rp rp' := by
  refine ⟨⟨[], 0, 0, 0, ⟨[], 0, 0, 0, 0⟩, 0, 0, 0, 0, 0, 0, 0⟩, _, ?_, 1, 0, rfl⟩
  intro h
  have : (0 : Zr) = 1 := congrArg (fun rp => rp.ipp.C) h
  exact zero_ne_one this

end PoL.Props
