import Verif.Spec.IrTranscripts
import Mathlib.Algebra.BigOperators.Group.Finset.Basic

/-!
# Transcripts of the range proof (specification of special soundness)

The interactive protocol behind `bp/range.go`: the prover sends `W`, `Q`; receives `x`; sends `γ` and runs the
iterated reduction, whose last message is `u`; sends `R`; receives `y0`, `y1` and the challenge `x0` that
scales `U` in the inner-product argument; sends `C1`, `C2`; receives `z`; sends `τ`, `ρ`, `c` and runs the
inner-product argument.
-/

namespace PoL.BP

open Finset

/-- The generators; `Gs`, `Hs`, `Fs` by index. -/
structure RangeGens (A : Type) where
  F : A
  G : A
  H : A
  U : A
  Gs : ℕ → A
  Hs : ℕ → A
  Fs : ℕ → A

/-- One transcript, with all its challenges. -/
structure RangeTr (A : Type) where
  W : A
  Q : A
  x : Zr
  γ : Zr
  /-- challenge and pair `(A,B)` of every round of the reduction -/
  red : List (Zr × A × A)
  u : Zr
  R : A
  y0 : Zr
  y1 : Zr
  x0 : Zr
  C1 : A
  C2 : A
  z : Zr
  τ : Zr
  ρ : Zr
  c : Zr
  /-- challenge and pair `(L,R)` of every round of the inner-product argument -/
  ipa : List (Zr × A × A)
  a : Zr
  b : Zr

/-- The weights of the committed entries: `2^j·Π` for bit `j` of value `i`, `x·Π` for blinding entry `i`,
where `Π` is the monomial of `i` in the reduction's challenges `r` (lowest bit first). -/
def rangeWeight (n : ℕ) (r : List Zr) (x : Zr) (i : ℕ) : Zr :=
  if i < n * 63 then 2 ^ (i % 63) * bitMonomial r (i / 63) else x * bitMonomial r (i - n * 63)

/-- The constant term `c0` that the verifier computes. -/
def rangeConstant (n : ℕ) (r : List Zr) (x u y0 y1 : Zr) : Zr :=
  y1 ^ 3 * ∑ i ∈ range (n * 63), rangeWeight n r x i + y1 ^ 2 * (u + ∑ i ∈ range (n * 63), y0 ^ i)
    + y1 * ∑ i ∈ range (n * 63), y0 ^ i

variable {A : Type} [AddCommGroup A] [Module Zr A]

/-- The statement of the inner-product argument. -/
def rangeStatement (g : RangeGens A) (n : ℕ) (Q R : A) (r : List Zr) (x y0 y1 z ρ : Zr) : A :=
  ρ • g.F + Q + z • R + ∑ i ∈ range (n * 63), y1 • g.Hs i
    + ∑ i ∈ range (n * 64), (y1 ^ 2 * rangeWeight n r x i) • (y0⁻¹ ^ i • g.Fs i)
    + ∑ i ∈ range (n * 63), y1 • g.Fs i

/-- The verifier accepts the transcript, for a commitment `V` to `n` values. -/
def RangeTr.Accepted (g : RangeGens A) (n : ℕ) (V : A) (t : RangeTr A) : Prop :=
  let r := (t.red.map Prod.fst).reverse
  irAccepts t.red (t.γ • g.F + V + t.x • t.W) ((List.range n).map g.Gs) t.u ∧
  acceptsWith (t.x0 • g.U) t.ipa
    (rangeStatement g n t.Q t.R r t.x t.y0 t.y1 t.z t.ρ + (t.x0 * t.c) • g.U)
    ((List.range (n * 64)).map g.Hs) ((List.range (n * 64)).map fun i => t.y0⁻¹ ^ i • g.Fs i) t.a t.b ∧
  t.z • t.C1 + t.z ^ 2 • t.C2 + rangeConstant n r t.x t.u t.y0 t.y1 • g.G = t.c • g.G + t.τ • g.H

/-- The answer to a challenge `z`: the last message, and a tree of inner-product transcripts. -/
structure ZAnswer (A : Type) where
  z : Zr
  τ : Zr
  ρ : Zr
  c : Zr
  tree : TTree A

/-- The answers to a triple `(y0, y1, x0)`: `C1`, `C2`, and the answers to three challenges `z`. -/
structure YAnswer (A : Type) where
  x0 : Zr
  C1 : A
  C2 : A
  zs : Fin 3 → ZAnswer A

/-- What follows one transcript of the reduction: `R`, and the answers to challenges `y0` in `S0` and `y1` in `S1 y0`,
with two values of `x0` for each. -/
structure RBranch (A : Type) where
  R : A
  S0 : List Zr
  S1 : Zr → List Zr
  ans : Zr → Zr → Fin 2 → YAnswer A

/-- The answers to a challenge `x`: `γ`, a tree of transcripts of the reduction, and what follows each of them. -/
structure XBranch (A : Type) where
  x : Zr
  γ : Zr
  tree : ITree A
  next : List Zr → RBranch A

/-- A tree of transcripts of the range proof: `W`, `Q`, and the answers to two challenges `x`. -/
structure RTree (A : Type) where
  W : A
  Q : A
  xs : Fin 2 → XBranch A

omit [AddCommGroup A] [Module Zr A] in
/-- The sizes of a tree for `2^k` values: challenges are distinct, and non-zero where the protocol divides by
them; `64·2^k` values of `y0`, three values of `y1` for each. -/
def RTree.WellFormed (t : RTree A) (k : ℕ) : Prop :=
  (t.xs 0).x ≠ (t.xs 1).x ∧ ∀ j, (t.xs j).tree.WellFormed k ∧ ∀ p ∈ (t.xs j).tree.paths,
    let b := (t.xs j).next (p.1.map Prod.fst)
    b.S0.Nodup ∧ 2 ^ k * 64 ≤ b.S0.length ∧ 0 ∉ b.S0 ∧
    ∀ y0 ∈ b.S0, (b.S1 y0).Nodup ∧ 3 ≤ (b.S1 y0).length ∧ ∀ y1 ∈ b.S1 y0, (b.ans y0 y1 0).x0 ≠ (b.ans y0 y1 1).x0 ∧
      ∀ e, (b.ans y0 y1 e).x0 ≠ 0 ∧ (∀ q q', q ≠ q' → ((b.ans y0 y1 e).zs q).z ≠ ((b.ans y0 y1 e).zs q').z) ∧
        ∀ q, ((b.ans y0 y1 e).zs q).tree.WellFormed (k + 6)

/-- All transcripts of the tree are accepted. -/
def RTree.Accepted (g : RangeGens A) (n : ℕ) (V : A) (t : RTree A) : Prop :=
  ∀ j, ∀ p ∈ (t.xs j).tree.paths,
    let b := (t.xs j).next (p.1.map Prod.fst)
    ∀ y0 ∈ b.S0, ∀ y1 ∈ b.S1 y0, ∀ e q, ∀ l ∈ ((b.ans y0 y1 e).zs q).tree.paths,
      let m := b.ans y0 y1 e
      RangeTr.Accepted g n V
        { W := t.W, Q := t.Q, x := (t.xs j).x, γ := (t.xs j).γ, red := p.1, u := p.2, R := b.R, y0 := y0, y1 := y1,
          x0 := m.x0, C1 := m.C1, C2 := m.C2, z := (m.zs q).z, τ := (m.zs q).τ, ρ := (m.zs q).ρ,
          c := (m.zs q).c, ipa := l.1, a := l.2.1, b := l.2.2 }

section
variable {A : Type}

/-- The scalars of an answer, without its group elements. -/
def ZAnswer.scalars (m : ZAnswer A) : ZAnswer Unit := { z := m.z, τ := m.τ, ρ := m.ρ, c := m.c, tree := m.tree.scalars }

/-- The scalars of an answer, without its group elements. -/
def YAnswer.scalars (m : YAnswer A) : YAnswer Unit :=
  { x0 := m.x0, C1 := (), C2 := (), zs := fun q => (m.zs q).scalars }

/-- The scalars of a branch, without its group elements. -/
def RBranch.scalars (b : RBranch A) : RBranch Unit :=
  { R := (), S0 := b.S0, S1 := b.S1, ans := fun y0 y1 e => (b.ans y0 y1 e).scalars }

/-- The scalars of a branch, without its group elements. -/
def XBranch.scalars (b : XBranch A) : XBranch Unit :=
  { x := b.x, γ := b.γ, tree := b.tree.scalars, next := fun rs => (b.next rs).scalars }

/-- The scalars of a tree, without its group elements. -/
def RTree.scalars (t : RTree A) : RTree Unit := { W := (), Q := (), xs := fun j => (t.xs j).scalars }

end

/-- A linear relation among the generators: their coefficients. -/
structure RangeRel where
  f : Zr
  g : Zr
  h : Zr
  u : Zr
  gs : ℕ → Zr
  hs : ℕ → Zr
  fs : ℕ → Zr

/-- The group element with these coefficients. -/
def RangeRel.eval (p : RangeRel) (g : RangeGens A) (n : ℕ) : A :=
  p.f • g.F + p.g • g.G + p.h • g.H + p.u • g.U + ∑ i ∈ range n, p.gs i • g.Gs i
    + ∑ i ∈ range (n * 64), p.hs i • g.Hs i + ∑ i ∈ range (n * 64), p.fs i • g.Fs i

/-- All coefficients are zero. -/
def RangeRel.IsZero (p : RangeRel) (n : ℕ) : Prop :=
  p.f = 0 ∧ p.g = 0 ∧ p.h = 0 ∧ p.u = 0 ∧ (∀ i < n, p.gs i = 0) ∧ (∀ i < n * 64, p.hs i = 0) ∧
    ∀ i < n * 64, p.fs i = 0

end PoL.BP
