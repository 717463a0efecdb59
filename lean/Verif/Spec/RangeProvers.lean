import Verif.Spec.Provers
import Verif.Spec.RangeTranscripts
import Mathlib.Data.Rat.Defs

/-!
# Interactive provers of the iterated reduction and the range proof (specification of the soundness error)
-/

namespace PoL.BP

/-- A prover of the reduction: the pair `(A,B)` of the next round and the final value, as functions of the challenges so
far. -/
structure IrProver (A : Type) where
  pair : List Zr → A × A
  u : List Zr → Zr

/-- The rounds of the prover for the given challenges. -/
def IrProver.rounds {A : Type} (pair : List Zr → A × A) : List Zr → List (Zr × A × A)
  | [] => []
  | r :: rs => (r, pair []) :: rounds (fun l => pair (r :: l)) rs

/-- All transcripts of the tree are transcripts of the prover. -/
def ITree.Of {A : Type} (t : ITree A) (p : IrProver A) : Prop :=
  ∀ q ∈ t.paths, q = (IrProver.rounds p.pair (q.1.map Prod.fst), p.u (q.1.map Prod.fst))

/-- The sequences of `k` non-zero challenges for which the prover is accepted. -/
def IrProver.wins {A : Type} [AddCommGroup A] [Module Zr A] (p : IrProver A) (k : ℕ) (V : A) (G : List A) : Set (List Zr) :=
  {rs | rs.length = k ∧ 0 ∉ rs ∧ irAccepts (IrProver.rounds p.pair rs) V G (p.u rs)}

/-- The challenges of the range proof, in the order in which they are made. -/
structure RangeCh where
  x : Zr
  /-- of the rounds of the reduction -/
  rs : List Zr
  y0 : Zr
  y1 : Zr
  x0 : Zr
  z : Zr
  /-- of the rounds of the inner-product argument -/
  xs : List Zr

/-- A prover of the range proof: its messages as functions of the challenges made before them. -/
structure RangeProver (A : Type) where
  W : A
  Q : A
  γ : (x : Zr) → Zr
  red : (x : Zr) → IrProver A
  R : (x : Zr) → (rs : List Zr) → A
  C : (x : Zr) → (rs : List Zr) → (y0 y1 x0 : Zr) → A × A
  /-- `τ`, `ρ`, `c` -/
  last : (x : Zr) → (rs : List Zr) → (y0 y1 x0 z : Zr) → Zr × Zr × Zr
  ipa : (x : Zr) → (rs : List Zr) → (y0 y1 x0 z : Zr) → Prover A

/-- The transcript of the prover for the given challenges. -/
def RangeProver.transcript {A : Type} (p : RangeProver A) (c : RangeCh) : RangeTr A where
  W := p.W
  Q := p.Q
  x := c.x
  γ := p.γ c.x
  red := IrProver.rounds (p.red c.x).pair c.rs
  u := (p.red c.x).u c.rs
  R := p.R c.x c.rs
  y0 := c.y0
  y1 := c.y1
  x0 := c.x0
  C1 := (p.C c.x c.rs c.y0 c.y1 c.x0).1
  C2 := (p.C c.x c.rs c.y0 c.y1 c.x0).2
  z := c.z
  τ := (p.last c.x c.rs c.y0 c.y1 c.x0 c.z).1
  ρ := (p.last c.x c.rs c.y0 c.y1 c.x0 c.z).2.1
  c := (p.last c.x c.rs c.y0 c.y1 c.x0 c.z).2.2
  ipa := ((p.ipa c.x c.rs c.y0 c.y1 c.x0 c.z).answer c.xs).1
  a := ((p.ipa c.x c.rs c.y0 c.y1 c.x0 c.z).answer c.xs).2.1
  b := ((p.ipa c.x c.rs c.y0 c.y1 c.x0 c.z).answer c.xs).2.2

/-- The challenges of a proof for `2^k` values; those that the protocol divides by, or that scale `U`, are not zero. -/
def RangeCh.Valid (c : RangeCh) (k : ℕ) : Prop :=
  c.rs.length = k ∧ 0 ∉ c.rs ∧ c.y0 ≠ 0 ∧ c.x0 ≠ 0 ∧ c.xs.length = k + 6 ∧ 0 ∉ c.xs

/-- The challenges for which the prover is accepted. -/
def RangeProver.wins {A : Type} [AddCommGroup A] [Module Zr A] (p : RangeProver A) (g : RangeGens A) (k : ℕ) (V : A) :
    Set RangeCh :=
  {c | c.Valid k ∧ (p.transcript c).Accepted g (2 ^ k) V}

/-- All transcripts of the tree are transcripts of the prover. -/
def RTree.Of {A : Type} (t : RTree A) (p : RangeProver A) : Prop :=
  ∀ j, ∀ s ∈ (t.xs j).tree.paths,
    let b := (t.xs j).next (s.1.map Prod.fst)
    ∀ y0 ∈ b.S0, ∀ y1 ∈ b.S1 y0, ∀ e q, ∀ l ∈ ((b.ans y0 y1 e).zs q).tree.paths,
      let m := b.ans y0 y1 e
      p.transcript ⟨(t.xs j).x, s.1.map Prod.fst, y0, y1, m.x0, (m.zs q).z, l.1.map Prod.fst⟩ =
        { W := t.W, Q := t.Q, x := (t.xs j).x, γ := (t.xs j).γ, red := s.1, u := s.2, R := b.R, y0 := y0, y1 := y1,
          x0 := m.x0, C1 := m.C1, C2 := m.C2, z := (m.zs q).z, τ := (m.zs q).τ, ρ := (m.zs q).ρ,
          c := (m.zs q).c, ipa := l.1, a := l.2.1, b := l.2.2 }

/-- The number of the challenges for `2^k` values. -/
def rangeTotal (k : ℕ) : ℚ := (order : ℚ) ^ 3 * ((order : ℚ) - 1) ^ (2 * k + 8)

/-- The soundness error: the fraction of the challenges beyond which a prover can be rewound. -/
def rangeError (k : ℕ) : ℚ := 5 / order + (64 * 2 ^ k + 9 * k + 36) / (order - 1)

end PoL.BP
