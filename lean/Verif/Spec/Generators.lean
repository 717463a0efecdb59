import Verif.Model.Pol
import Verif.Lib.Dot

/-!
# The generators that are hashed to the curve

What the points are for (`Role`), which of them are in given parameters, and linear relations between them.
-/

namespace PoL.Spec
open BP Pol

/-- What a generator hashed to the curve is used for. -/
inductive Role
  | rangeG | rangeH | rangeFs | rangeHs | rangeReductionU | sumU | sumG | sumH | poeG | poeH | poeF | innerProductU
  deriving DecidableEq

/-- The context string that belongs to it. -/
def Role.context : Role → String
  | .rangeG => "range proof G"
  | .rangeH => "range proof H"
  | .rangeFs => "range proof Fs"
  | .rangeHs => "range proof Hs"
  | .rangeReductionU => "U range proof"
  | .sumU => "IPA u"
  | .sumG => "sum argument G"
  | .sumH => "sum argument H"
  | .poeG => "POE G"
  | .poeH => "POE H"
  | .poeF => "POE F"
  | .innerProductU => "u"

/-- The `i`-th string that is hashed for the given role. -/
def Role.label (r : Role) (i : ℕ) : String := "PoL " ++ r.context ++ " " ++ toString i

variable {G1 G2 GT : Type} [AddCommGroup G1] [Module Zr G1] [AddCommGroup G2] [Module Zr G2]
  [AddCommGroup GT] [Module Zr GT]

/-- The point for a string: 64 bytes made from its SHA-256 digest, hashed to the curve. -/
def pointOf (E : Curve G1 G2 GT) (s : String) : G1 :=
  E.hashToG1 (E.sha256 (strBytes s) ++ E.sha256 (E.sha256 (strBytes s)))

/-- SHA-256 has no collision among the strings hashed for the generators. -/
def NoLabelCollision (E : Curve G1 G2 GT) : Prop := ∀ r r' i i', i < 2 ^ 21 → i' < 2 ^ 21 →
  E.sha256 (strBytes (Role.label r i)) = E.sha256 (strBytes (Role.label r' i')) → Role.label r i = Role.label r' i'

/-- The generators in the parameters, and those made from fixed strings while proving and verifying, are the points
`g`. -/
structure GeneratorsAre (E : Curve G1 G2 GT) (pp : PublicParams G1 G2 GT) (g : Role → ℕ → G1) : Prop where
  rangeG : pp.RPPP.G = g .rangeG 0
  rangeH : pp.RPPP.H = g .rangeH 0
  rangeFs : pp.RPPP.Fs = (List.range ((pp.fanout + 1) * 64)).map (g .rangeFs)
  rangeHs : pp.RPPP.Hs = (List.range ((pp.fanout + 1) * 64)).map (g .rangeHs)
  sumU : pp.SAPP.U = g .sumU 0
  sumG : pp.SAPP.G = g .sumG 0
  sumH : pp.SAPP.H = (List.range (pp.fanout + 1)).map (g .sumH)
  poeG : pp.POEPP.G = (List.range pp.POEPP.G.length).map (g .poeG)
  poeH : pp.POEPP.H = (List.range pp.POEPP.G.length).map (g .poeH)
  poeF : pp.POEPP.F = g .poeF 0
  rangeReductionU : ∀ q, rangeRdxPP E pp.RPPP = some q → q.U = g .rangeReductionU 0
  rangeIpaU : ∀ F' q, rangeIpaPP E pp.RPPP F' = some q → q.U = g .innerProductU 0
  poeIpaU : ∀ q, Poe.ipaParams E pp.POEPP = some q → q.U = g .innerProductU 0

/-- How many generators there are for each role. -/
def Role.count (pp : PublicParams G1 G2 GT) : Role → ℕ
  | .rangeFs | .rangeHs => (pp.fanout + 1) * 64
  | .sumH => pp.fanout + 1
  | .poeG | .poeH => pp.POEPP.G.length
  | _ => 1

/-- The linear combination of all generators in the parameters, and of the two fixed points `U` and `U'` made while
proving and verifying, with coefficients `k`. -/
def combination (pp : PublicParams G1 G2 GT) (U U' : G1) (k : Role → ℕ → Zr) : G1 :=
  k .rangeG 0 • pp.RPPP.G + k .rangeH 0 • pp.RPPP.H + dot ((List.range pp.RPPP.Fs.length).map (k .rangeFs)) pp.RPPP.Fs
    + dot ((List.range pp.RPPP.Hs.length).map (k .rangeHs)) pp.RPPP.Hs + k .sumU 0 • pp.SAPP.U + k .sumG 0 • pp.SAPP.G
    + dot ((List.range pp.SAPP.H.length).map (k .sumH)) pp.SAPP.H
    + dot ((List.range pp.POEPP.G.length).map (k .poeG)) pp.POEPP.G
    + dot ((List.range pp.POEPP.H.length).map (k .poeH)) pp.POEPP.H + k .poeF 0 • pp.POEPP.F
    + k .innerProductU 0 • U + k .rangeReductionU 0 • U'

end PoL.Spec
