import Verif.Proofs.NilScalars
import Verif.Props.Schedule

/-!
# C130: nil scalars and nil parts in proofs

Whoever sends a proof may also leave out scalars or whole parts (a range proof, an inner-product proof, the sum argument, the equality
proof).  C130: no proof is accepted for that, and no accepted proof has a `nil` among what counts.
-/

namespace PoL.Props

open Spec

variable {G1 G2 GT : Type} [AddCommGroup G1] [Module Zr G1] [AddCommGroup G2] [Module Zr G2] [AddCommGroup GT] [Module Zr GT]
  [DecidableEq G1] [DecidableEq GT]

/-- C130: if `Verify` returns for a proof with `nil`s, it returns the same with any scalars and parts in their places. -/
theorem C130_verdict (E : Curve G1 G2 GT) (n : Nil.Lp G1) (lp : Pol.LiabilityProof G1) (hf : LpFilled n lp) (pp : Pol.PublicParams G1 G2 GT)
    (id : Str) (V W : G1) (id2path : Str → Option (List ℕ)) (b : Bool) (h : n.verify E pp id V W id2path = some b) :
    lp.verify E pp id V W id2path = some b :=
  (Nil.lp_upto E (k := False) n lp hf pp id V W id2path (fun h => h.elim)).eq_some h

/-- C130: an accepted proof has no `nil` among what counts. -/
theorem C130_no_nil (E : Curve G1 G2 GT) (n : Nil.Lp G1) (pp : Pol.PublicParams G1 G2 GT) (id : Str) (V W : G1)
    (id2path : Str → Option (List ℕ)) (path : List ℕ) (hp : id2path id = some path) (h : n.verify E pp id V W id2path = some true) :
    LpWhole path.length n := Nil.lp_whole hp h

/-- C130: the `nil`s that do not count (the last digest, surplus range proofs) change nothing, panics included. -/
theorem C130_unused (E : Curve G1 G2 GT) (n : Nil.Lp G1) (lp : Pol.LiabilityProof G1) (hf : LpFilled n lp) (pp : Pol.PublicParams G1 G2 GT)
    (id : Str) (V W : G1) (id2path : Str → Option (List ℕ)) (path : List ℕ) (hp : id2path id = some path) (hw : LpWhole path.length n) :
    n.verify E pp id V W id2path = lp.verify E pp id V W id2path :=
  (Nil.lp_upto E (k := True) n lp hf pp id V W id2path fun _ q hq => by
    obtain rfl := Option.some.inj (hp.symm.trans hq); exact hw).eq trivial

/-- C130: `Verify` accepts a proof with `nil`s exactly if nothing that counts is `nil` and the proof is accepted with any scalars and
parts in the places of the `nil`s; it panics on an accepted proof from which anything that counts is taken out. -/
theorem C130_taken_out_panics (E : Curve G1 G2 GT) (n : Nil.Lp G1) (lp : Pol.LiabilityProof G1) (hf : LpFilled n lp)
    (pp : Pol.PublicParams G1 G2 GT) (id : Str) (V W : G1) (id2path : Str → Option (List ℕ)) (path : List ℕ) (hp : id2path id = some path)
    (h : lp.verify E pp id V W id2path = some true) :
    (LpWhole path.length n → n.verify E pp id V W id2path = some true) ∧
      (¬LpWhole path.length n → n.verify E pp id V W id2path = none) := by
  refine ⟨fun hw => (C130_unused E n lp hf pp id V W id2path path hp hw).trans h, fun hw => ?_⟩
  cases e : n.verify E pp id V W id2path with
  | none => rfl
  | some b =>
    have := C130_verdict E n lp hf pp id V W id2path b e
    rw [h, Option.some.injEq] at this
    subst this
    exact absurd (Nil.lp_whole hp e) hw

/-! ## The hypotheses can be met -/

section Examples

/-- A proof without `nil`s. -/
def ippOf {G1 : Type} (p : BP.InnerProductProof G1) : Nil.Ipp G1 := ⟨p.LRs, some p.a, some p.b⟩

/-- See `ippOf`. -/
def rangeOf {G1 : Type} (p : BP.RangeProof G1) : Nil.Range G1 :=
  ⟨p.Δ, some p.u, p.W, some p.γ, some (ippOf p.ipp), some p.c, p.Q, p.R, p.C1, p.C2, some p.τ, some p.ρ⟩

/-- See `ippOf`; the last digest is `nil`. -/
def lpOf {G1 : Type} (p : Pol.LiabilityProof G1) : Nil.Lp G1 :=
  ⟨some p.pointProofSum, p.pointProof,
    some ⟨p.sumArgumentProof.W, some p.sumArgumentProof.c, some p.sumArgumentProof.ρ, some (ippOf p.sumArgumentProof.π)⟩, p.V, p.W,
    (p.digests.map some).set (p.digests.length - 1) none, p.rangeProofs.map fun r => some (rangeOf r),
    some ⟨some (ippOf p.equalityProof.IPP), some p.equalityProof.c, some p.equalityProof.ρ, p.equalityProof.U, p.equalityProof.V,
      p.equalityProof.Ω, p.equalityProof.Waggr, p.equalityProof.Vaggr⟩, p.total⟩

theorem orNil_some {α : Type} (x : α) : OrNil (some x) x := fun _ h => (Option.some.inj h).symm

theorem ippOf_filled {G1 : Type} (p : BP.InnerProductProof G1) : ∀ m, some (ippOf p) = some m → IppFilled m p := by
  rintro m h
  obtain rfl := Option.some.inj h
  exact ⟨rfl, orNil_some _, orNil_some _⟩

theorem lpOf_filled {G1 : Type} (p : Pol.LiabilityProof G1) : LpFilled (lpOf p) p := by
  refine ⟨orNil_some _, rfl, fun m hm => ?_, rfl, rfl, ?_, ?_, fun m hm => ?_, rfl⟩
  · obtain rfl := Option.some.inj hm
    exact ⟨rfl, orNil_some _, orNil_some _, ippOf_filled _⟩
  · show List.Forall₂ OrNil ((p.digests.map some).set (p.digests.length - 1) none) p.digests
    rw [List.forall₂_iff_get]
    refine ⟨by simp, fun i h₁ h₂ => ?_⟩
    simp only [List.get_eq_getElem, List.getElem_set, List.getElem_map]
    split_ifs
    · exact fun _ h => nomatch h
    · exact orNil_some _
  · show List.Forall₂ _ (p.rangeProofs.map fun r => some (rangeOf r)) p.rangeProofs
    rw [List.forall₂_map_left_iff, List.forall₂_same]
    intro r _ m hm
    obtain rfl := Option.some.inj hm
    exact ⟨rfl, orNil_some _, rfl, orNil_some _, ippOf_filled _, orNil_some _, rfl, rfl, rfl, rfl, orNil_some _, orNil_some _⟩
  · obtain rfl := Option.some.inj hm
    exact ⟨ippOf_filled _, orNil_some _, orNil_some _, rfl, rfl, rfl, rfl, rfl⟩

theorem ippOf_whole {G1 : Type} (p : BP.InnerProductProof G1) : ∃ m, some (ippOf p) = some m ∧ IppWhole m := ⟨_, rfl, nofun, nofun⟩

theorem lpOf_whole {G1 : Type} (p : Pol.LiabilityProof G1) : LpWhole p.digests.length (lpOf p) := by
  refine ⟨nofun, ⟨_, rfl, nofun, nofun, ippOf_whole _⟩, fun i hi => ?_, fun i _ o ho => ?_, ⟨_, rfl, ippOf_whole _, nofun, nofun⟩⟩
  · show ((p.digests.map some).set (p.digests.length - 1) none)[i]? ≠ some none
    rw [List.getElem?_set_ne (by omega), List.getElem?_map]
    cases p.digests[i]? <;> simp
  · replace ho : (p.rangeProofs.map fun r => some (rangeOf r))[i]? = some o := ho
    rw [List.getElem?_map, Option.map_eq_some_iff] at ho
    obtain ⟨r, -, rfl⟩ := ho
    exact ⟨_, rfl, nofun, nofun, ippOf_whole _, nofun, nofun, nofun⟩

/-- The proof for `221` of the toy set is accepted with `nil` as its last digest, and is not answered without its sum argument. -/
example : ∃ (pp : Pol.PublicParams Zr Zr Zr) (n : Nil.Lp Zr) (id2path : Str → Option (List ℕ)) (V W : Zr),
    n.digests[2]? = some none ∧ n.verify toyCurve pp ['2', '2', '1'] V W id2path = some true ∧
    Nil.Lp.verify toyCurve { n with sumArgumentProof := none } pp ['2', '2', '1'] V W id2path = none := by
  obtain ⟨ls, ls', lp, V, W, -, ht, -, -, h⟩ := toy_accepted
  have hp : ls.tree.id2Path ['2', '2', '1'] = some [2, 2, 1] := by rw [ht]; rfl
  have hl : lp.digests.length = 3 := by
    obtain ⟨path, hp', hacc⟩ := (Pol.verify_iff _ _ _ _ _ _ _).1 h
    obtain rfl := Option.some.inj (hp.symm.trans hp')
    exact hacc.len_digests
  have hw := lpOf_whole lp
  rw [hl] at hw
  refine ⟨ls.pp, lpOf lp, _, V, W, ?_, (C130_taken_out_panics _ _ lp (lpOf_filled lp) _ _ _ _ _ _ hp h).1 hw,
    (C130_taken_out_panics _ _ lp ?_ _ _ _ _ _ _ hp h).2 fun hw' => ?_⟩
  · show ((lp.digests.map some).set (lp.digests.length - 1) none)[2]? = some none
    rw [hl, List.getElem?_set_self (by simp [hl])]
  · obtain ⟨h1, h2, h3, h4, h5, h6, h7, h8, h9⟩ := lpOf_filled lp
    exact ⟨h1, h2, fun _ hm => (nomatch hm), h4, h5, h6, h7, h8, h9⟩
  · obtain ⟨m, hm, -⟩ := hw'.sumArgumentProof
    exact nomatch hm

end Examples

end PoL.Props
