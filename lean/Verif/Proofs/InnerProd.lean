import Verif.Proofs.Vec
import Verif.Spec.Challenges
import Mathlib.Tactic.FieldSimp
import Mathlib.Algebra.Module.Torsion.Field

/-!
# Helper lemmas about the inner-product argument
-/

set_option linter.unusedSectionVars false

namespace PoL.BP

variable {G1 G2 GT : Type} [AddCommGroup G1] [Module Zr G1] [AddCommGroup G2] [Module Zr G2]
  [AddCommGroup GT] [Module Zr GT]

/-- Folding of a vector of group elements: `s·left + t·right`. -/
def foldG (s t : Zr) (n : ℕ) (g : List G1) : List G1 :=
  List.zipWith (· + ·) (Gv.mul (g.take n) s) (Gv.mul (g.drop n) t)

/-- Folding of a vector of scalars. -/
def foldV (s t : Zr) (n : ℕ) (a : List Zr) : List Zr :=
  List.zipWith (· + ·) (Vec.mul (a.take n) s) (Vec.mul (a.drop n) t)

theorem foldG_length {s t : Zr} {n : ℕ} {g : List G1} (h : g.length = 2 * n) :
    (foldG s t n g).length = n := by
  simp [foldG, h]; omega

theorem foldV_length {s t : Zr} {n : ℕ} {a : List Zr} (h : a.length = 2 * n) :
    (foldV s t n a).length = n := by
  simp [foldV, h]; omega

theorem dot_fold {s t s' t' : Zr} {n : ℕ} {a : List Zr} {g : List G1} (ha : a.length = 2 * n)
    (hg : g.length = 2 * n) : dot (foldV s t n a) (foldG s' t' n g)
      = (s * s') • dot (a.take n) (g.take n) + (s * t') • dot (a.take n) (g.drop n)
        + (t * s') • dot (a.drop n) (g.take n) + (t * t') • dot (a.drop n) (g.drop n) := by
  rw [foldV, foldG, dot_add_right _ _ _ (by simp [hg]; omega), dot_add_left _ _ _ (by simp [ha]; omega),
    dot_add_left _ _ _ (by simp [ha]; omega)]
  simp only [Vec.dot_mul, dot_gvmul]
  module

theorem foldV_eq_foldG (s t : Zr) (n : ℕ) (a : List Zr) : foldV s t n a = foldG s t n a := by
  simp [foldV, foldG, Vec.mul, Gv.mul, mul_comm]

theorem dot_foldV {s t s' t' : Zr} {n : ℕ} {a b : List Zr} (ha : a.length = 2 * n)
    (hb : b.length = 2 * n) : dot (foldV s t n a) (foldV s' t' n b)
      = (s * s') * dot (a.take n) (b.take n) + (s * t') * dot (a.take n) (b.drop n)
        + (t * s') * dot (a.drop n) (b.take n) + (t * t') * dot (a.drop n) (b.drop n) := by
  rw [foldV_eq_foldG s' t', dot_fold ha hb]
  simp only [smul_eq_mul]

theorem digestInput_isSome (E : Curve G1 G2 GT) (pp : PP G1) (h : pp.H = [] ∨ pp.G.length ≤ pp.H.length) :
    ∃ b, digestInput E pp = some b := by
  have : ∃ parts, ((List.range pp.G.length).mapM fun i => do
      let gi ← pp.G[i]?
      if pp.H.length > 0 then
        let hi ← pp.H[i]?
        return E.g1Bytes gi ++ E.g1Bytes hi
      else return E.g1Bytes gi) = some parts := by
    refine ⟨_, mapM_some _ (fun i => E.g1Bytes (pp.G.getD i 0) ++
      if pp.H.length > 0 then E.g1Bytes (pp.H.getD i 0) else []) _ fun i hi => ?_⟩
    have hi' : i < pp.G.length := by simpa using hi
    rw [List.getElem?_eq_getElem hi']
    simp only [Option.bind_eq_bind, Option.bind_some, Option.pure_def]
    split
    · next hpos =>
      have hlt : i < pp.H.length := by
        rcases h with h | h
        · rw [h] at hpos; simp at hpos
        · omega
      simp [List.getElem?_eq_getElem hlt, List.getD, hi']
    · simp [List.getD, hi']
  obtain ⟨parts, hp⟩ := this
  exact ⟨_, by rw [digestInput, hp]; rfl⟩

theorem setupDigest_isSome (E : Curve G1 G2 GT) (pp : PP G1) (h : pp.H = [] ∨ pp.G.length ≤ pp.H.length) :
    ∃ d, setupDigest E pp = some { pp with digest := d } := by
  obtain ⟨b, hb⟩ := digestInput_isSome E pp h
  exact ⟨_, by rw [setupDigest, hb]; rfl⟩

theorem computeNextParams_eq (E : Curve G1 G2 GT) (L R : G1) (pp : PP G1) (g h : List G1) (P : G1)
    (n : ℕ) (hg : g.length = 2 * n) (hh : h.length = 2 * n) (x : Zr)
    (hx : fieldElementFromBytes (randomOracle E L R pp.digest) = some x) :
    computeNextParams E L R pp g h P = some
      { x := x, xInverse := x⁻¹, g := foldG x⁻¹ x n g, h := foldG x x⁻¹ n h
        P := (x * x) • L + P + (x * x)⁻¹ • R } := by
  have h2 : g.length / 2 = n := by omega
  simp only [computeNextParams, hx, Option.bind_eq_bind, Option.bind_some, h2]
  rw [sliceTo_eq (by omega), sliceFrom_eq (by omega), sliceTo_eq (by omega), sliceFrom_eq (by omega)]
  simp only [Option.bind_some]
  rw [Gv.hadamardProd_eq (by simp [hg]; omega), Option.bind_some,
    Gv.hadamardProd_eq (by simp [hh]; omega), Option.bind_some]
  rfl

variable [DecidableEq G1]

theorem verifyLoop_one (E : Curve G1 G2 GT) (pp : PP G1) (P g0 h0 : G1) (LRs : List G1) (a b : Zr) :
    verifyLoop E pp P [g0] [h0] LRs a b
      = some (decide ((a * b) • pp.U + a • g0 + b • h0 = P)) := by
  unfold verifyLoop
  simp

theorem verifyLoop_step (E : Curve G1 G2 GT) (pp : PP G1) (P L R : G1) (g h LRs : List G1) (a b : Zr)
    (n : ℕ) (_hn : 0 < n) (hg : g.length = 2 * n) (hh : h.length = 2 * n) (x : Zr)
    (hx : fieldElementFromBytes (randomOracle E L R pp.digest) = some x) :
    verifyLoop E pp P g h (L :: R :: LRs) a b
      = verifyLoop E pp ((x * x) • L + P + (x * x)⁻¹ • R) (foldG x⁻¹ x n g) (foldG x x⁻¹ n h) LRs a b := by
  rw [verifyLoop, if_neg (by omega)]
  simp only [computeNextParams_eq E L R pp g h P n hg hh x hx]

/-- One folding round preserves the honest equation. -/
theorem fold_identity {x : Zr} (hx : x ≠ 0) {n : ℕ} {a b : List Zr} {g h : List G1} (U : G1)
    (ha : a.length = 2 * n) (hb : b.length = 2 * n) (hg : g.length = 2 * n) (hh : h.length = 2 * n) :
    dot (foldV x x⁻¹ n a) (foldV x⁻¹ x n b) • U + dot (foldV x x⁻¹ n a) (foldG x⁻¹ x n g)
        + dot (foldV x⁻¹ x n b) (foldG x x⁻¹ n h)
      = (x * x) • (dot (a.take n) (g.drop n) + dot (b.drop n) (h.take n)
            + dot (a.take n) (b.drop n) • U)
        + (dot a b • U + dot a g + dot b h)
        + (x * x)⁻¹ • (dot (a.drop n) (g.take n) + dot (b.take n) (h.drop n)
            + dot (a.drop n) (b.take n) • U) := by
  rw [dot_foldV ha hb, dot_fold ha hg, dot_fold hb hh, dot_take_drop n a b, dot_take_drop n a g,
    dot_take_drop n b h, mul_inv]
  simp only [mul_inv_cancel₀ hx, inv_mul_cancel₀ hx]
  module

/-- The honest prover always returns `2k` group elements on vectors of length `2^k`; the verifier's
verdict on them, for any starting `P`, is whether `P` is the honest commitment. -/
theorem proveLoop_complete (E : Curve G1 G2 GT) (hE : E.Lawful) (pp : PP G1) (k : ℕ) :
    ∀ (a b : List Zr) (P : G1) (g h : List G1), a.length = 2 ^ k → b.length = 2 ^ k →
      g.length = 2 ^ k → h.length = 2 ^ k →
      ∃ LRs a0 b0, proveLoop E pp a b P g h = some (LRs, a0, b0) ∧ LRs.length = 2 * k ∧
        ((∀ x ∈ roundChallenges E pp.digest LRs, x ≠ 0) → ∀ P' : G1,
          verifyLoop E pp P' g h LRs a0 b0
            = some (decide (dot a b • pp.U + dot a g + dot b h = P'))) := by
  induction k with
  | zero =>
    intro a b P g h ha hb hg hh
    obtain ⟨a0, rfl⟩ := List.length_eq_one_iff.1 ha
    obtain ⟨b0, rfl⟩ := List.length_eq_one_iff.1 hb
    obtain ⟨g0, rfl⟩ := List.length_eq_one_iff.1 hg
    obtain ⟨h0, rfl⟩ := List.length_eq_one_iff.1 hh
    refine ⟨[], a0, b0, ?_, rfl, fun _ P' => ?_⟩
    · unfold proveLoop; simp
    · rw [verifyLoop_one]; simp
  | succ k ih =>
    intro a b P g h ha hb hg hh
    rw [pow_succ, mul_comm] at ha hb hg hh
    set n := 2 ^ k with hnk
    have hn : 0 < n := by positivity
    set L := dot (a.take n) (g.drop n) + dot (b.drop n) (h.take n)
      + dot (a.take n) (b.drop n) • pp.U with hL
    set R := dot (a.drop n) (g.take n) + dot (b.take n) (h.drop n)
      + dot (a.drop n) (b.take n) • pp.U with hR
    obtain ⟨x, hx⟩ := fieldElementFromBytes_isSome (hE.sha_len (E.g1Bytes L ++ E.g1Bytes R ++ pp.digest))
    obtain ⟨LRs, a0, b0, hrec, hlen, hver⟩ := ih (foldV x x⁻¹ n a) (foldV x⁻¹ x n b)
      ((x * x) • L + P + (x * x)⁻¹ • R) (foldG x⁻¹ x n g) (foldG x x⁻¹ n h)
      (foldV_length ha) (foldV_length hb) (foldG_length hg) (foldG_length hh)
    refine ⟨L :: R :: LRs, a0, b0, ?_, by simp [hlen]; omega, fun hne P' => ?_⟩
    · have hnp := computeNextParams_eq E L R pp g h P n hg hh x hx
      have h2 : g.length / 2 = n := by omega
      have hpart : (do
        let aL ← sliceTo a (g.length / 2)
        let aR ← sliceFrom a (g.length / 2)
        let bL ← sliceTo b (g.length / 2)
        let bR ← sliceFrom b (g.length / 2)
        let cL ← Vec.innerProd aL bR
        let cR ← Vec.innerProd aR bL
        let Lg ← Vec.exp aL (← sliceFrom g (g.length / 2))
        let Lh ← Vec.exp bR (← sliceTo h (g.length / 2))
        let L := Lg + Lh + cL • pp.U
        let Rg ← Vec.exp aR (← sliceTo g (g.length / 2))
        let Rh ← Vec.exp bL (← sliceFrom h (g.length / 2))
        let R := Rg + Rh + cR • pp.U
        return (aL, aR, bL, bR, L, R) : Option _)
          = some (a.take n, a.drop n, b.take n, b.drop n, L, R) := by
        have nonnil : ∀ {l : List G1}, l.length = n → l ≠ [] := by
          intro l hl hc; rw [hc] at hl; simp at hl; omega
        rw [h2, sliceTo_eq (by omega), sliceFrom_eq (by omega), sliceTo_eq (by omega),
          sliceFrom_eq (by omega)]
        simp only [Option.bind_eq_bind, Option.bind_some]
        rw [Vec.innerProd_eq (by simp [ha, hb]; omega), Vec.innerProd_eq (by simp [ha, hb]; omega),
          sliceFrom_eq (by omega), sliceTo_eq (by omega), sliceTo_eq (by omega), sliceFrom_eq (by omega)]
        simp only [Option.bind_some]
        rw [Vec.exp_eq (by simp [ha, hg]; omega) (nonnil (by simp [hg]; omega)), Option.bind_some,
          Vec.exp_eq (by simp [hb, hh]; omega) (nonnil (by simp [hh]; omega)), Option.bind_some,
          Vec.exp_eq (by simp [ha, hg]; omega) (nonnil (by simp [hg]; omega)), Option.bind_some,
          Vec.exp_eq (by simp [hb, hh]; omega) (nonnil (by simp [hh]; omega)), Option.bind_some]
        rfl
      rw [proveLoop, if_neg (by omega), if_neg (by omega), if_neg (by omega)]
      simp only [hpart]
      split
      · next heq => rw [hnp] at heq; simp at heq
      · next np heq =>
        rw [hnp] at heq
        cases heq
        simp only [Option.bind_eq_bind]
        rw [Vec.add_eq (by simp [ha]; omega), Option.bind_some, Vec.add_eq (by simp [hb]; omega),
          Option.bind_some]
        simp only [foldV] at hrec
        rw [hrec]
        rfl
    · have hgx : (fieldElementFromBytes (randomOracle E L R pp.digest)).getD 0 = x := by
        rw [show randomOracle E L R pp.digest = E.sha256 (E.g1Bytes L ++ E.g1Bytes R ++ pp.digest) from rfl,
          hx]; rfl
      have hx0 : x ≠ 0 := by
        apply hne
        simp [roundChallenges, hgx]
      rw [verifyLoop_step E pp P' L R g h LRs a0 b0 n hn hg hh x hx,
        hver (fun y hy => hne y (by simp [roundChallenges, hy])), fold_identity hx0 pp.U ha hb hg hh]
      congr 1
      rw [decide_eq_decide, ← hL, ← hR]
      constructor
      · intro h
        have := add_right_cancel h
        exact add_left_cancel this
      · intro h; rw [h]


theorem commit_eq (pp : PP G1) (a b : List Zr) (hab : a.length = b.length) (h0 : a ≠ [])
    (hG : a.length ≤ pp.G.length) (hH : a.length ≤ pp.H.length) :
    commit pp a b false = some (dot a pp.G + dot b pp.H) := by
  have : a.length ≠ 0 := by simpa using h0
  rw [commit, if_neg (by simpa using hab), if_neg (by omega)]
  simp only [foldl_add_eq_sum, zero_add]
  rfl

theorem computeInstance_eq (E : Curve G1 G2 GT) (pp : PP G1) (P : G1) (c : Zr)
    (h : pp.H = [] ∨ pp.G.length ≤ pp.H.length) (x : Zr)
    (hx : fieldElementFromBytes (E.sha256 (instanceHashInput pp P)) = some x) :
    ∃ d, computeInstanceSpecificParams E pp P c
      = some ({ digest := d, G := pp.G, H := pp.H, U := x • pp.U }, P + (x * c) • pp.U) := by
  obtain ⟨d, hd⟩ := setupDigest_isSome E { pp with U := x • pp.U } h
  refine ⟨d, ?_⟩
  rw [computeInstanceSpecificParams, hx]
  simp only [Option.bind_eq_bind, Option.bind_some]
  rw [hd]
  rfl

theorem instance_digest_indep (E : Curve G1 G2 GT) (pp : PP G1) {P P' : G1} {c c' : Zr}
    (h : instanceHashInput pp P = instanceHashInput pp P') :
    (computeInstanceSpecificParams E pp P c).map Prod.fst
      = (computeInstanceSpecificParams E pp P' c').map Prod.fst := by
  rw [computeInstanceSpecificParams, computeInstanceSpecificParams, h]
  cases fieldElementFromBytes (E.sha256 (instanceHashInput pp P')) with
  | none => rfl
  | some x =>
    simp only [Option.bind_eq_bind, Option.bind_some]
    cases setupDigest E { pp with U := x • pp.U } <;> rfl

/-- The whole argument, for any claimed `P`, `C` (also dishonest ones): the prover returns a proof, and
the verifier's verdict is whether the claimed statement is the honest one. -/
theorem prove_verify (E : Curve G1 G2 GT) (hE : E.Lawful) (pp : PP G1) (a b : List Zr) (C : Zr) (P : G1) (k : ℕ)
    (ha : a.length = 2 ^ k) (hb : b.length = 2 ^ k) (hG : pp.G.length = 2 ^ k)
    (hH : pp.H.length = 2 ^ k) :
    ∃ π x, InnerProdArgument.prove E { pp := pp, a := a, b := b, C := C, P := P } = some π ∧ π.P = P ∧ π.C = C ∧ π.LRs.length = 2 * k ∧
      fieldElementFromBytes (E.sha256 (instanceHashInput pp P)) = some x ∧
      ((∀ y ∈ ippChallenges E pp π, y ≠ 0) → ∀ (P' : G1) (C' : Zr),
        instanceHashInput pp P' = instanceHashInput pp P →
        InnerProductProof.verify E { π with P := P', C := C' } pp
          = some (decide (dot a b • (x • pp.U) + dot a pp.G + dot b pp.H
              = P' + (x * C') • pp.U))) := by
  obtain ⟨x, hx⟩ := fieldElementFromBytes_isSome (hE.sha_len (instanceHashInput pp P))
  have hGH : pp.H = [] ∨ pp.G.length ≤ pp.H.length := Or.inr (by omega)
  obtain ⟨d, hd⟩ := computeInstance_eq E pp P C hGH x hx
  obtain ⟨LRs, a0, b0, hpr, hlen, hver⟩ := proveLoop_complete E hE
    { digest := d, G := pp.G, H := pp.H, U := x • pp.U } k a b
    (P + (x * C) • pp.U) pp.G pp.H ha hb hG hH
  refine ⟨{ C := C, P := P, LRs := LRs, a := a0, b := b0 }, x, ?_, rfl, rfl, hlen, hx, ?_⟩
  · rw [InnerProdArgument.prove, hd]
    simp only [Option.bind_eq_bind, Option.bind_some]
    rw [hpr]
    rfl
  · intro hne P' C' hP'
    obtain ⟨d', hd'⟩ := computeInstance_eq E pp P' C' hGH x (by rw [hP']; exact hx)
    have hdd : d' = d := by
      have := instance_digest_indep E pp (c := C') (c' := C) hP'
      rw [hd, hd'] at this
      simpa using this
    subst hdd
    rw [InnerProductProof.verify, hd']
    simp only [Option.bind_eq_bind, Option.bind_some]
    rw [hver]
    simp only [ippChallenges, hd] at hne
    exact hne

end PoL.BP
