import Verif.Spec.Transcripts

/-!
# A prover that makes the rounds of an inner-product argument before the statement (specification for C82)
-/

namespace PoL.BP

variable {G1 G2 GT : Type} [AddCommGroup G1] [Module Zr G1] [AddCommGroup G2] [Module Zr G2]
  [AddCommGroup GT] [Module Zr GT]

/-- The coefficients of the generators `g` in the element that remains after folding with the challenges `xs`. -/
def foldWeights : List Zr → List Zr
  | [] => [1]
  | x :: xs => (foldWeights xs).map (· * x⁻¹) ++ (foldWeights xs).map (· * x)

/-- The pairs `(L,R)`, flattened, and the final scalars: as the honest prover makes them for vectors of length `2^k`, except
that in every round the next number of `es` is added to the coefficient of `U` in `L`. -/
def forge (E : Curve G1 G2 GT) (digest : Bytes) (U : G1) : (k : ℕ) → (a b : List Zr) → (g h : List G1) → (es : List Zr) →
    List G1 × Zr × Zr
  | 0, a, b, _, _, _ => ([], a.headD 0, b.headD 0)
  | k + 1, a, b, g, h, es =>
    let n := 2 ^ k
    let L := dot (a.take n) (g.drop n) + dot (b.drop n) (h.take n) + dot (a.take n) (b.drop n) • U + es.headD 0 • U
    let R := dot (a.drop n) (g.take n) + dot (b.take n) (h.drop n) + dot (a.drop n) (b.take n) • U
    let x := (fieldElementFromBytes (randomOracle E L R digest)).getD 0
    let rest := forge E digest U k (halvesG x x⁻¹ a) (halvesG x⁻¹ x b) (halvesG x⁻¹ x g) (halvesG x x⁻¹ h) es.tail
    (L :: R :: rest.1, rest.2)

end PoL.BP
