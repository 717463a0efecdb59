import Verif.Model.Range

/-!
# The Fiat–Shamir challenges of a proof

Only used to state "none of this run's challenges is zero".
-/

namespace PoL.BP

variable {G1 G2 GT : Type} [AddCommGroup G1] [Module Zr G1] [AddCommGroup G2] [Module Zr G2]
  [AddCommGroup GT] [Module Zr GT]

/-- The challenge of each `(L,R)` pair of a proof, under a parameter digest. -/
def roundChallenges (E : Curve G1 G2 GT) (digest : Bytes) : List G1 → List Zr
  | L :: R :: t =>
    (fieldElementFromBytes (randomOracle E L R digest)).getD 0 :: roundChallenges E digest t
  | _ => []

/-- The folding challenges of a proof checked under parameters `pp`. -/
def ippChallenges (E : Curve G1 G2 GT) (pp : PP G1) (π : InnerProductProof G1) : List Zr :=
  match computeInstanceSpecificParams E pp π.P π.C with
  | some (pp', _) => roundChallenges E pp'.digest π.LRs
  | none => []

/-- The challenges of the rounds `Δ` of an iterated reduction that starts from `prevV`. -/
def irChallenges (E : Curve G1 G2 GT) (digest : Bytes) (prevV : G1) : List (G1 × G1 × G1) → List Zr
  | [] => []
  | (A, B, V) :: Δ => (irChallenge E digest A B prevV).getD 0 :: irChallenges E digest V Δ

/-- The challenges of a range proof that have to be inverted: `y0`, those of the iterated reduction and those
of the inner-product proof, which is checked under parameters `ipaPP`. -/
def rangeChallenges (E : Curve G1 G2 GT) (pp : RPPP G1) (V : G1) (rp : RangeProof G1) (ipaPP : PP G1) :
    List Zr :=
  match rangeProofRO1 E pp V rp.W rp.Q, rangeRdxPP E pp with
  | some x, some rdx => (rangeY E pp rp.Q rp.R x 0).getD 0 ::
      irChallenges E rdx.digest (rp.γ • pp.F + V + x • rp.W) rp.Δ ++ ippChallenges E ipaPP rp.ipp
  | _, _ => []

end PoL.BP
