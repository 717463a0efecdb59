import Verif.Spec.Pointers

/-!
# Specification: sessions

A session is any sequence of calls to one liability set and of verifications of what earlier calls returned.  The caller keeps the
pointers returned.  `session` runs it with points as values, `Ptr.session` with pointers.
-/

namespace PoL.Spec

open Pol

/-- A call.  Verifications name the proof and the root by their positions among those returned so far. -/
inductive ApiCall where
  | set (id : Str) (liability : ℤ)
  | get (id : Str)
  | root
  | proveTot
  | proveLiability (rnd : ProveRand) (id : Str)
  | verifyTotal (total root : ℕ)
  | verifyLiability (proof root : ℕ) (id : Str)

/-- What the caller sees of the result of a call, apart from points. -/
inductive Seen where
  | nothing
  | amount (a : Option ℤ)
  | isRoot (present : Bool)
  | total (a : ℤ)
  | verdict (ok : Bool)
deriving DecidableEq

/-- What the caller holds: the set, the public parameters, and what was returned so far. -/
structure Held (A B C : Type) where
  ls : LiabilitySet A B C
  pp : PublicParams A B C
  id2Path : Str → Option (List ℕ)
  roots : List (A × Option A)
  totals : List (TotalProof A)
  proofs : List (LiabilityProof A)

variable {G1 G2 GT : Type} [AddCommGroup G1] [Module Zr G1] [AddCommGroup G2] [Module Zr G2] [AddCommGroup GT] [Module Zr GT]
  [DecidableEq G1] [DecidableEq GT]

/-- A call, with points as values. -/
def apiCall (E : Curve G1 G2 GT) (env : Verkle.Env) (s : Held G1 G2 GT) : ApiCall → Option (Held G1 G2 GT × Seen)
  | .set id a => do return ({ s with ls := ← s.ls.set E env id a }, .nothing)
  | .get id => do return (s, .amount (← s.ls.get E env id))
  | .root => do
    let r ← s.ls.root E
    return ({ s with ls := r.2, roots := s.roots ++ r.1.toList }, .isRoot r.1.isSome)
  | .proveTot => do
    let t ← s.ls.proveTot E
    return ({ s with totals := s.totals ++ [t] }, .total t.sum)
  | .proveLiability rnd id => do
    let r ← s.ls.proveLiability E env rnd id
    return ({ s with proofs := s.proofs ++ (r.map Prod.snd).toList }, .amount (r.map Prod.fst))
  | .verifyTotal i j => do
    let t ← s.totals[i]?
    let r ← s.roots[j]?
    return (s, .verdict (← t.verify E s.pp r.1))
  | .verifyLiability i j id => do
    let p ← s.proofs[i]?
    let r ← s.roots[j]?
    let W ← r.2
    return (s, .verdict (← p.verify E s.pp id r.1 W s.id2Path))

/-- The calls one after the other. -/
def apiCalls (E : Curve G1 G2 GT) (env : Verkle.Env) (s : Held G1 G2 GT) : List ApiCall → Option (Held G1 G2 GT × List Seen)
  | [] => some (s, [])
  | c :: cs => do
    let r ← apiCall E env s c
    let t ← apiCalls E env r.1 cs
    return (t.1, r.2 :: t.2)

/-- Parameters, a new set, and calls; `α`, `α'` are the secrets drawn. -/
def session (E : Curve G1 G2 GT) (env : Verkle.Env) (α α' : Zr) (fanOut : UInt16) (treeType : TreeType) (db : Verkle.Db) (cs : List ApiCall) :
    Option (Held G1 G2 GT × List Seen) := do
  let r ← generatePublicParams E α fanOut treeType
  apiCalls E env ⟨newLiabilitySet E α' r.2 db r.1, r.2, r.1, [], [], []⟩ cs

namespace Ptr

open PoL.Ptr

/-- A call, with pointers. -/
def apiCall (E : Curve G1 G2 GT) (gl : Globals) (env : Verkle.Env) (s : Held Ref Ref Ref) : ApiCall → Run (Cell G1 G2 GT) (Held Ref Ref Ref × Seen)
  | .set id a => do return ({ s with ls := ← Ptr.Pol.set E gl env s.ls id a }, .nothing)
  | .get id => do return (s, .amount (← Ptr.Pol.get E gl env s.ls id))
  | .root => do
    let r ← Ptr.Pol.root E s.ls
    return ({ s with ls := r.2, roots := s.roots ++ r.1.toList }, .isRoot r.1.isSome)
  | .proveTot => do
    let t ← Ptr.Pol.proveTot E gl s.ls
    return ({ s with totals := s.totals ++ [t] }, .total t.sum)
  | .proveLiability rnd id => do
    let r ← Ptr.Pol.proveLiability E gl env s.ls rnd id
    return ({ s with proofs := s.proofs ++ (r.map Prod.snd).toList }, .amount (r.map Prod.fst))
  | .verifyTotal i j => do
    let t ← lift s.totals[i]?
    let r ← lift s.roots[j]?
    return (s, .verdict (← Ptr.Pol.totalVerify E gl t s.pp r.1))
  | .verifyLiability i j id => do
    let p ← lift s.proofs[i]?
    let r ← lift s.roots[j]?
    let W ← lift r.2
    return (s, .verdict (← Ptr.Pol.verify E gl p s.pp id r.1 W s.id2Path))

/-- The calls one after the other. -/
def apiCalls (E : Curve G1 G2 GT) (gl : Globals) (env : Verkle.Env) (s : Held Ref Ref Ref) :
    List ApiCall → Run (Cell G1 G2 GT) (Held Ref Ref Ref × List Seen)
  | [] => pure (s, [])
  | c :: cs => do
    let r ← apiCall E gl env s c
    let t ← apiCalls E gl env r.1 cs
    return (t.1, r.2 :: t.2)

/-- The start of the program, parameters, a new set, and calls. -/
def session (E : Curve G1 G2 GT) (env : Verkle.Env) (α α' : Zr) (fanOut : UInt16) (treeType : TreeType) (db : Verkle.Db) (cs : List ApiCall) :
    Run (Cell G1 G2 GT) (Held Ref Ref Ref × List Seen) := do
  let gl ← initGlobals E
  let r ← Ptr.Pol.generatePublicParams E gl α fanOut treeType
  let ls ← Ptr.Pol.newLiabilitySet E gl α' r.2 db r.1
  apiCalls E gl env ⟨ls, r.2, r.1, [], [], []⟩ cs

end Ptr

open PoL.Ptr (Mem Cell Ref kG1)

/-- What the caller holds. -/
structure HeldAt (h : Mem (Cell G1 G2 GT)) (p : Held Ref Ref Ref) (q : Held G1 G2 GT) : Prop where
  ls : LsAt h p.ls q.ls
  pp : PubAt h p.pp q.pp
  id2Path : p.id2Path = q.id2Path
  roots : List.Forall₂ (fun a b => At kG1 h a.1 b.1 ∧ OptAt h a.2 b.2) p.roots q.roots
  totals : List.Forall₂ (TotalAt h) p.totals q.totals
  proofs : List.Forall₂ (LpAt h) p.proofs q.proofs

end PoL.Spec
