import Verif.Model.PtrPol

/-!
# Specification: what pointers point to, and what a call leaves alone
-/

namespace PoL.Spec

open Ptr

variable {C M : Type}

/-- The pointer `r` points to `x`. -/
def At (k : Kind C M) (h : Mem C) (r : Ref) (x : M) : Prop := h.cells[r.addr]? = some (k.put x)

/-- The pointers `rs` point to `xs`, one by one. -/
def Ats (k : Kind C M) (h : Mem C) (rs : List Ref) (xs : List M) : Prop := List.Forall₂ (At k h) rs xs

/-- From memory `h` to memory `h'` no cell of `h` was written to, not even temporarily, and all have their contents. -/
structure Keeps (h h' : Mem C) : Prop where
  cells : h.cells <+: h'.cells
  written : ∃ l, h'.written = h.written ++ l ∧ ∀ a ∈ l, h.cells.length ≤ a

/-- From memory `h` to memory `h'` only the cell at `c` was written to, among those of `h`. -/
structure WritesOnly (c : Ref) (h h' : Mem C) : Prop where
  cells : ∀ (a : ℕ) (v : C), a ≠ c.addr → h.cells[a]? = some v → h'.cells[a]? = some v
  written : ∃ l, h'.written = h.written ++ l ∧ ∀ a ∈ l, a = c.addr ∨ h.cells.length ≤ a

/-- The computation `m` with pointers, run in memory `h`, agrees with `out`: it panics if `out` does; otherwise it leaves the memory
`h` alone, and its result stands for that of `out`. -/
def Agrees {α β : Type} (m : Run C α) (h : Mem C) (out : Option β) (R : Mem C → α → β → Prop) : Prop :=
  match m h, out with
  | none, none => True
  | some (a, h'), some b => Keeps h h' ∧ R h' a b
  | _, _ => False

/-- The computation `m` with pointers, run in memory `h`, changes what `c` points to into what `out` says, and no other cell. -/
def Changes {α : Type} (k : Kind C M) (c : Ref) (m : Run C α) (h : Mem C) (out : Option M) : Prop :=
  match m h, out with
  | none, none => True
  | some (_, h'), some x => WritesOnly c h h' ∧ At k h' c x
  | _, _ => False

/-- The pointers are to cells that were not there in `h`, no two the same. -/
def NewCells (h : Mem C) (rs : List Ref) : Prop := rs.Nodup ∧ ∀ r ∈ rs, h.cells.length ≤ r.addr

variable {G1 G2 GT : Type}

/-- The parameters of the vector commitment. -/
structure PPAt (h : Mem (Cell G1 G2 GT)) (p : PP Ref Ref Ref) (q : PP G1 G2 GT) : Prop where
  digest : p.digest = q.digest
  N : p.N = q.N
  G1s : Ats kG1 h p.G1s q.G1s
  G2s : Ats kG2 h p.G2s q.G2s
  Gt : At kGt h p.Gt q.Gt

/-- The parameters of the inner-product argument. -/
structure BpAt (h : Mem (Cell G1 G2 GT)) (p : BP.PP Ref) (q : BP.PP G1) : Prop where
  digest : p.digest = q.digest
  G : Ats kG1 h p.G q.G
  H : Ats kG1 h p.H q.H
  U : At kG1 h p.U q.U

/-- An argument that is going to be proved. -/
structure IpaAt (h : Mem (Cell G1 G2 GT)) (p : BP.InnerProdArgument Ref) (q : BP.InnerProdArgument G1) : Prop where
  pp : BpAt h p.pp q.pp
  a : p.a = q.a
  b : p.b = q.b
  C : p.C = q.C
  P : At kG1 h p.P q.P

/-- A proof of an inner product. -/
structure IppAt (h : Mem (Cell G1 G2 GT)) (p : BP.InnerProductProof Ref) (q : BP.InnerProductProof G1) : Prop where
  LRs : Ats kG1 h p.LRs q.LRs
  a : p.a = q.a
  b : p.b = q.b
  P : At kG1 h p.P q.P
  C : p.C = q.C

/-- The entries of the iterated reduction. -/
def ΔAt (h : Mem (Cell G1 G2 GT)) (p : List (Ref × Ref × Ref)) (q : List (G1 × G1 × G1)) : Prop :=
  List.Forall₂ (fun a b => At kG1 h a.1 b.1 ∧ At kG1 h a.2.1 b.2.1 ∧ At kG1 h a.2.2 b.2.2) p q

/-- The parameters of range proofs. -/
structure RpppAt (h : Mem (Cell G1 G2 GT)) (p : BP.RPPP Ref) (q : BP.RPPP G1) : Prop where
  G : At kG1 h p.G q.G
  H : At kG1 h p.H q.H
  F : At kG1 h p.F q.F
  Gs : Ats kG1 h p.Gs q.Gs
  Hs : Ats kG1 h p.Hs q.Hs
  Fs : Ats kG1 h p.Fs q.Fs
  digest : p.digest = q.digest

/-- A range proof. -/
structure RpAt (h : Mem (Cell G1 G2 GT)) (p : BP.RangeProof Ref) (q : BP.RangeProof G1) : Prop where
  Δ : ΔAt h p.Δ q.Δ
  u : p.u = q.u
  W : At kG1 h p.W q.W
  γ : p.γ = q.γ
  ipp : IppAt h p.ipp q.ipp
  c : p.c = q.c
  Q : At kG1 h p.Q q.Q
  R : At kG1 h p.R q.R
  C1 : At kG1 h p.C1 q.C1
  C2 : At kG1 h p.C2 q.C2
  τ : p.τ = q.τ
  ρ : p.ρ = q.ρ

/-- The parameters of the sum argument. -/
structure SumPPAt (h : Mem (Cell G1 G2 GT)) (p : Sum.PP Ref) (q : Sum.PP G1) : Prop where
  digest : p.digest = q.digest
  U : At kG1 h p.U q.U
  Gs : Ats kG1 h p.Gs q.Gs
  G : At kG1 h p.G q.G
  F : At kG1 h p.F q.F
  H : Ats kG1 h p.H q.H
  b : p.b = q.b
  B : At kG1 h p.B q.B

/-- A proof of the sum argument. -/
structure SumProofAt (h : Mem (Cell G1 G2 GT)) (p : Sum.Proof Ref) (q : Sum.Proof G1) : Prop where
  W : At kG1 h p.W q.W
  c : p.c = q.c
  ρ : p.ρ = q.ρ
  π : IppAt h p.π q.π

/-- The parameters of proofs of equality. -/
structure PoePPAt (h : Mem (Cell G1 G2 GT)) (p : Poe.PP Ref Ref Ref) (q : Poe.PP G1 G2 GT) : Prop where
  digest : p.digest = q.digest
  G : Ats kG1 h p.G q.G
  H : Ats kG1 h p.H q.H
  F : At kG1 h p.F q.F
  vc : PPAt h p.vc q.vc

/-- An aggregated proof of equality. -/
structure ApAt (h : Mem (Cell G1 G2 GT)) (p : Poe.AggregatedProof Ref) (q : Poe.AggregatedProof G1) : Prop where
  IPP : IppAt h p.IPP q.IPP
  c : p.c = q.c
  ρ : p.ρ = q.ρ
  U : At kG1 h p.U q.U
  V : At kG1 h p.V q.V
  Ω : At kG1 h p.Ω q.Ω
  Waggr : Ats kG1 h p.Waggr q.Waggr
  Vaggr : Ats kG1 h p.Vaggr q.Vaggr

/-- The statement of an aggregated proof of equality. -/
structure EqsAt (h : Mem (Cell G1 G2 GT)) (p : Poe.Equalities Ref Ref Ref) (q : Poe.Equalities G1 G2 GT) : Prop where
  PP : PoePPAt h p.PP q.PP
  V : Ats kG1 h p.V q.V
  W : Ats kG1 h p.W q.W
  I : p.I = q.I
  J : p.J = q.J

/-- The statement of a proof of equality. -/
structure EqAt (h : Mem (Cell G1 G2 GT)) (p : Poe.Equality Ref Ref Ref) (q : Poe.Equality G1 G2 GT) : Prop where
  PP : PoePPAt h p.PP q.PP
  V : At kG1 h p.V q.V
  W : At kG1 h p.W q.W
  I : p.I = q.I
  J : p.J = q.J

/-- A proof of equality. -/
structure EqProofAt (h : Mem (Cell G1 G2 GT)) (p : Poe.Proof Ref) (q : Poe.Proof G1) : Prop where
  C : p.C = q.C
  V : At kG1 h p.V q.V
  W : At kG1 h p.W q.W
  Ω : At kG1 h p.Ω q.Ω

/-- A pointer that may be `nil`. -/
def OptAt (h : Mem (Cell G1 G2 GT)) : Option Ref → Option G1 → Prop
  | none, none => True
  | some r, some x => At kG1 h r x
  | _, _ => False

/-- A vertex of the tree. -/
structure VertexAt (h : Mem (Cell G1 G2 GT)) (p : Verkle.Vertex Ref) (q : Verkle.Vertex G1) : Prop where
  blindingFactor : p.blindingFactor = q.blindingFactor
  values : p.values = q.values
  digests : p.digests = q.digests
  sum : p.sum = q.sum
  V : At kG1 h p.V q.V
  W : OptAt h p.W q.W

/-- The public parameters. -/
structure PubAt (h : Mem (Cell G1 G2 GT)) (p : Pol.PublicParams Ref Ref Ref) (q : Pol.PublicParams G1 G2 GT) : Prop where
  PPPP : PPAt h p.PPPP q.PPPP
  SAPP : SumPPAt h p.SAPP q.SAPP
  RPPP : RpppAt h p.RPPP q.RPPP
  POEPP : PoePPAt h p.POEPP q.POEPP
  fanout : p.fanout = q.fanout

/-- A liability set, with its database. -/
structure LsAt (h : Mem (Cell G1 G2 GT)) (p : Pol.LiabilitySet Ref Ref Ref) (q : Pol.LiabilitySet G1 G2 GT) : Prop where
  vc : PPAt h p.tree.PP q.tree.PP
  fanOut : p.tree.fanOut = q.tree.fanOut
  id2Path : p.tree.id2Path = q.tree.id2Path
  root : p.tree.root = q.tree.root
  pp : PubAt h p.pp q.pp
  memRoot : p.memRoot = q.memRoot
  s : p.s = q.s

/-- A proof of the total. -/
structure TotalAt (h : Mem (Cell G1 G2 GT)) (p : Pol.TotalProof Ref) (q : Pol.TotalProof G1) : Prop where
  liabilityProof : At kG1 h p.liabilityProof q.liabilityProof
  sum : p.sum = q.sum

/-- A proof of a liability. -/
structure LpAt (h : Mem (Cell G1 G2 GT)) (p : Pol.LiabilityProof Ref) (q : Pol.LiabilityProof G1) : Prop where
  pointProofSum : p.pointProofSum = q.pointProofSum
  pointProof : At kG1 h p.pointProof q.pointProof
  sumArgumentProof : SumProofAt h p.sumArgumentProof q.sumArgumentProof
  V : Ats kG1 h p.V q.V
  W : Ats kG1 h p.W q.W
  digests : p.digests = q.digests
  rangeProofs : List.Forall₂ (RpAt h) p.rangeProofs q.rangeProofs
  equalityProof : ApAt h p.equalityProof q.equalityProof
  total : TotalAt h p.total q.total

/-- What `ProveLiability` returns: the liability and the proof, or nothing. -/
def ProvedAt (h : Mem (Cell G1 G2 GT)) : Option (ℤ × Pol.LiabilityProof Ref) → Option (ℤ × Pol.LiabilityProof G1) → Prop
  | none, none => True
  | some a, some b => a.1 = b.1 ∧ LpAt h a.2 b.2
  | _, _ => False

/-- What `Root` returns. -/
def RootAt (h : Mem (Cell G1 G2 GT)) : Option (Ref × Option Ref) → Option (G1 × Option G1) → Prop
  | none, none => True
  | some a, some b => At kG1 h a.1 b.1 ∧ OptAt h a.2 b.2
  | _, _ => False

variable [AddCommGroup G1] [Module Zr G1] [AddCommGroup G2] [Module Zr G2] [AddCommGroup GT] [Module Zr GT]

/-- The package variables hold what they should. -/
structure GlobalsAt (E : Curve G1 G2 GT) (h : Mem (Cell G1 G2 GT)) (gl : Globals) : Prop where
  zeroG1 : At kG1 h gl.zeroG1 0
  genG1 : At kG1 h gl.genG1 E.genG1
  genG2 : At kG2 h gl.genG2 E.genG2
  genGt : At kGt h gl.genGt E.genGt

end PoL.Spec
