import Verif.Model.Pol
import Verif.Lib.Dot

/-! What the parameters of a liability set have to satisfy, and the situation of a new set. -/

namespace PoL.Spec
open Pol BP

variable {G1 G2 GT : Type} [AddCommGroup G1] [Module Zr G1] [AddCommGroup G2] [Module Zr G2]
  [AddCommGroup GT] [Module Zr GT]

/-- `M` is the least of `2, 4, 8, …, 32768` that is at least `m`. -/
def IsPadded (m M : ℕ) : Prop :=
  (∃ j, 1 ≤ j ∧ j ≤ 15 ∧ M = 2 ^ j) ∧ m ≤ M ∧ ∀ i, 1 ≤ i → m ≤ 2 ^ i → M ≤ 2 ^ i

/-- The parameters belong together, for fan-out `F` and paths of length `L`: the commitment key has `F + 2`
bases made from `α`; the first `F + 1` are the bases of the sum argument and of the range proofs, the next one
is their base for the blinding factor; the equality argument has room for the `L - 1` pairs of neighbouring
layers. -/
structure Fits (E : Curve G1 G2 GT) (α : Zr) (F L : ℕ) (pp : PublicParams G1 G2 GT) : Prop where
  fanout : pp.fanout = F
  depth : 2 ≤ L
  power : ∃ k, 2 ≤ k ∧ k ≤ 15 ∧ F + 1 = 2 ^ k
  PPPP : pp.PPPP = PP.newPublicParams E α (F + 2)
  sa_Gs : pp.SAPP.Gs = pp.PPPP.G1s.take (F + 1)
  sa_F : pp.PPPP.G1s[F + 1]? = some pp.SAPP.F
  sa_H : pp.SAPP.H.length = F + 1
  sa_b : pp.SAPP.b = List.replicate F 1 ++ [-1]
  sa_B : pp.SAPP.B = dot pp.SAPP.b pp.SAPP.H
  rp_Gs : pp.RPPP.Gs = pp.PPPP.G1s.take (F + 1)
  rp_F : pp.PPPP.G1s[F + 1]? = some pp.RPPP.F
  rp_Hs : pp.RPPP.Hs.length = (F + 1) * 64
  rp_Fs : pp.RPPP.Fs.length = (F + 1) * 64
  poe_vc : pp.POEPP.vc = pp.PPPP
  poe_size : ∃ M, IsPadded (L - 1) M ∧ pp.POEPP.G.length = M ∧ pp.POEPP.H.length = M

end PoL.Spec
