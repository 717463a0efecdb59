import Verif.Spec.PoeBatch
import Verif.Proofs.SumSound
import Verif.Proofs.RangeHonest
import Mathlib.LinearAlgebra.Basis.VectorSpace

/-!
# Special soundness of the batch equality proof: extraction
-/

set_option linter.unusedSectionVars false

namespace PoL.Poe

open BP Finset
open _root_.PoL.Sum

variable {G1 G2 GT : Type} [AddCommGroup G1] [Module Zr G1] [AddCommGroup G2] [Module Zr G2]
  [AddCommGroup GT] [Module Zr GT]

/-- Coefficients that pick out `t0 k` (or `t1 k`) from all affine functions of the challenges. -/
def IsSelector {G : Type} (b : BatchBranch G) (m k : ℕ) (side : Bool) (l : ℕ → Zr) : Prop :=
  ∑ j ∈ range b.n, l j = 0 ∧ ∀ i < m,
    ∑ j ∈ range b.n, l j * (b.ans j).t0 i = (if i = k ∧ side = false then 1 else 0) ∧
    ∑ j ∈ range b.n, l j * (b.ans j).t1 i = (if i = k ∧ side = true then 1 else 0)

theorem exists_selector {G : Type} (b : BatchBranch G) (m k : ℕ) (hk : k < m) (side : Bool) (h : b.Independent m) :
    ∃ l, IsSelector b m k side l := by
  let ι := Fin m ⊕ Fin m ⊕ Unit
  let row (j : ℕ) : ι → Zr
    | .inl i => (b.ans j).t0 i
    | .inr (.inl i) => (b.ans j).t1 i
    | .inr (.inr _) => 1
  let T : (ι → Zr) →ₗ[Zr] (Fin b.n → Zr) :=
    { toFun := fun w j => ∑ i, w i * row j i
      map_add' := fun v w => by funext j; simp [add_mul, Finset.sum_add_distrib]
      map_smul' := fun c w => by funext j; simp [mul_assoc, Finset.mul_sum] }
  have hT : ∀ w j, T w j = ∑ i : Fin m, w (.inl i) * (b.ans j).t0 i + (∑ i : Fin m, w (.inr (.inl i)) * (b.ans j).t1 i
      + w (.inr (.inr ()))) := by
    intro w j
    show ∑ i, w i * row j i = _
    rw [Fintype.sum_sum_type, Fintype.sum_sum_type]
    simp [row]
  have hinj : LinearMap.ker T = ⊥ := by
    rw [LinearMap.ker_eq_bot']
    intro w hw
    have := h (fun i => if hi : i < m then w (.inl ⟨i, hi⟩) else 0) (fun i => if hi : i < m then w (.inr (.inl ⟨i, hi⟩)) else 0)
      (w (.inr (.inr ()))) (by
        intro j hj
        have h0 := congrFun hw ⟨j, hj⟩
        rw [hT] at h0
        rw [← show (0 : Fin b.n → Zr) ⟨j, hj⟩ = 0 from rfl, ← h0, Finset.sum_add_distrib, Finset.sum_range, Finset.sum_range]
        simp [add_assoc])
    obtain ⟨h1, h2⟩ := this
    funext i
    match i with
    | .inl i => have := (h2 i i.isLt).1; simpa using this
    | .inr (.inl i) => have := (h2 i i.isLt).2; simpa using this
    | .inr (.inr ()) => exact h1
  obtain ⟨L, hL⟩ := T.exists_leftInverse_of_injective hinj
  let e : ι := if side then .inr (.inl ⟨k, hk⟩) else .inl ⟨k, hk⟩
  have key : ∀ w : ι → Zr, ∑ j : Fin b.n, L (Pi.single j 1) e * T w j = w e := by
    intro w
    have h1 : L (T w) = w := by rw [← LinearMap.comp_apply, hL, LinearMap.id_apply]
    conv_rhs => rw [← h1]
    have h2 : T w = ∑ j : Fin b.n, T w j • Pi.single (M := fun _ => Zr) j 1 := by
      funext i
      simp [Finset.sum_apply, Pi.single_apply]
    conv_rhs => rw [h2, map_sum, Finset.sum_apply]
    refine Finset.sum_congr rfl fun j _ => ?_
    rw [map_smul, Pi.smul_apply, smul_eq_mul, mul_comm]
  have key2 : ∀ (f g : Fin m → Zr) (d : Zr), ∑ j : Fin b.n, L (Pi.single j 1) e *
      (∑ i, f i * (b.ans j).t0 i + (∑ i, g i * (b.ans j).t1 i + d)) = if side then g ⟨k, hk⟩ else f ⟨k, hk⟩ := by
    intro f g d
    have h1 := key (_root_.Sum.elim f (_root_.Sum.elim g fun _ => d))
    simp only [hT, _root_.Sum.elim_inl, _root_.Sum.elim_inr] at h1
    rw [h1]
    cases side <;> rfl
  refine ⟨fun j => if hj : j < b.n then L (Pi.single ⟨j, hj⟩ 1) e else 0, ?_, fun i hi => ⟨?_, ?_⟩⟩
  · have := key2 0 0 1
    simpa [Finset.sum_range] using this
  · have := key2 (Pi.single ⟨i, hi⟩ 1) 0 0
    rw [Finset.sum_range]
    simp only [Fin.is_lt, dite_true]
    cases side <;> simpa [Pi.single_apply, eq_comm] using this
  · have := key2 0 (Pi.single ⟨i, hi⟩ 1) 0
    rw [Finset.sum_range]
    simp only [Fin.is_lt, dite_true]
    cases side <;> simpa [Pi.single_apply, eq_comm] using this

open Classical in
/-- Coefficients that pick out `t0 k` or `t1 k`. -/
noncomputable def selector (b : BatchBranch Unit) (m k : ℕ) (side : Bool) : ℕ → Zr :=
  if h : ∃ l, IsSelector b m k side l then h.choose else fun _ => 0

theorem selector_spec {G : Type} (b : BatchBranch G) (m k : ℕ) (hk : k < m) (side : Bool) (h : b.Independent m) :
    IsSelector b m k side (selector b.scalars m k side) := by
  have hs : b.scalars.Independent m := h
  have := exists_selector b.scalars m k hk side hs
  rw [selector, dif_pos this]
  exact this.choose_spec

/-- What an answer says about `x·U + Y`. -/
def opening (x₀ : Zr) (m : ℕ) (a : BatchAnswer Unit) : Relation where
  f := - a.ρ
  a := (extract a.tree).a
  b := List.zipWith (· - ·) (extract a.tree).b (a.weights m)
  u := x₀ * (extract a.tree).c - x₀ * a.c

/-- The difference of two openings. -/
def Relation.sub (p q : Relation) : Relation :=
  ⟨p.f - q.f, List.zipWith (· - ·) p.a q.a, List.zipWith (· - ·) p.b q.b, p.u - q.u⟩

/-- The relations found in a branch. -/
def batchRels (x₀ : Zr) (m : ℕ) (b : BatchBranch Unit) : List Relation :=
  (List.range b.n).flatMap fun j => Relation.sub (opening x₀ m (b.ans j)) (opening x₀ m (b.ans 0)) ::
    (relations (b.ans j).tree).map fun q => ⟨0, q.a, q.b, x₀ * q.c⟩

/-- The value of entry `k` found in a branch. -/
def batchValue (b : BatchBranch Unit) (k : ℕ) : Zr := (extract (b.ans 0).tree).a.getD k 0

theorem Opens.eq {E : Curve G1 G2 GT} (hn : E.NonDegenerate) {α : Zr} {N m : ℕ} {s : Pairs G1} {V' W' : ℕ → G1} {x : Zr}
    {a : BatchAnswer G1} (h : a.Opens E α N m s V' W' x) :
    a.Ω = ∑ k ∈ range m, (a.t0 k • α ^ (N - s.I k) • (s.V k + x • V' k) + a.t1 k • α ^ (N - s.J k) • (s.W k + x • W' k))
      - (a.c * α ^ (N + 1)) • E.genG1 := by
  rw [eq_comm, ← sub_eq_zero]
  apply hn
  unfold BatchAnswer.Opens at h
  rw [← sub_eq_zero] at h
  rw [← h]
  simp only [map_sub, map_add, map_sum, map_smul, LinearMap.sub_apply, LinearMap.add_apply, LinearMap.sum_apply,
    LinearMap.smul_apply, Finset.sum_add_distrib, smul_comm (α ^ _) (_ : Zr)]
  rw [pow_succ]
  module

variable {E : Curve G1 G2 GT} {α : Zr} {N κ : ℕ} {s : Pairs G1} {F : G1} {G H : List G1} {B : G1} {x₀ : Zr}
  {V' W' : ℕ → G1} {b : BatchBranch G1}

theorem opening_sound (hG : G.length = 2 ^ κ) (hH : H.length = 2 ^ κ) {a : BatchAnswer G1} {x : Zr} {U Y : G1}
    (hwf : a.tree.WellFormed κ) (hacc : a.Accepted E α N (2 ^ κ) s F G H B x₀ V' W' x U Y) :
    ((opening x₀ (2 ^ κ) a.scalars).a.length = 2 ^ κ ∧ (opening x₀ (2 ^ κ) a.scalars).b.length = 2 ^ κ ∧
      (opening x₀ (2 ^ κ) a.scalars).eval F G H B = x • U + Y) ∧
    ∀ q ∈ (relations a.tree.scalars).map fun q => (⟨0, q.a, q.b, x₀ * q.c⟩ : Relation),
      q.a.length = 2 ^ κ ∧ q.b.length = 2 ^ κ ∧ q.eval F G H B = 0 := by
  obtain ⟨⟨la, lb⟩, hP, hr, -⟩ := extract_sound (x₀ • B) κ a.tree _ G H hwf hG hH hacc.2
  have lw : (a.weights (2 ^ κ)).length = 2 ^ κ := by simp [BatchAnswer.weights]
  refine ⟨⟨la, ?_, ?_⟩, fun q hq => ?_⟩
  · show (List.zipWith (· - ·) _ (a.weights (2 ^ κ))).length = _
    rw [List.length_zipWith, lw]
    show min (extract a.tree.scalars).b.length _ = _
    rw [lb, min_self]
  · show -a.ρ • F + dot (extract a.tree.scalars).a G + dot (List.zipWith (· - ·) (extract a.tree.scalars).b (a.weights (2 ^ κ))) H
      + (x₀ * (extract a.tree.scalars).c - x₀ * a.c) • B = _
    rw [dot_sub_left _ _ _ (by rw [lb, lw])]
    rw [Rep.eval] at hP
    linear_combination (norm := module) -hP
  · obtain ⟨p, hp, rfl⟩ := List.mem_map.1 hq
    obtain ⟨⟨l1, l2⟩, e⟩ := hr p hp
    refine ⟨l1, l2, ?_⟩
    rw [← e, Relation.eval, Rep.eval]
    module

theorem batchRels_hold (hG : G.length = 2 ^ κ) (hH : H.length = 2 ^ κ)
    (hacc : b.Accepted E α N κ s F G H B x₀ V' W') :
    ∀ q ∈ batchRels x₀ (2 ^ κ) b.scalars, q.a.length = 2 ^ κ ∧ q.b.length = 2 ^ κ ∧ q.eval F G H B = 0 := by
  intro q hq
  obtain ⟨j, hj, hq⟩ := List.mem_flatMap.1 hq
  have hj : j < b.n := List.mem_range.1 hj
  obtain ⟨⟨l1, l2, e⟩, hr⟩ := opening_sound hG hH (hacc.2 j hj).1 (hacc.2 j hj).2
  obtain ⟨⟨l1', l2', e'⟩, -⟩ := opening_sound hG hH (hacc.2 0 (by omega)).1 (hacc.2 0 (by omega)).2
  rcases List.mem_cons.1 hq with rfl | hq
  · refine ⟨?_, ?_, ?_⟩
    · show (List.zipWith (· - ·) (opening x₀ (2 ^ κ) (b.ans j).scalars).a (opening x₀ (2 ^ κ) (b.ans 0).scalars).a).length = _
      rw [List.length_zipWith, l1, l1', min_self]
    · show (List.zipWith (· - ·) (opening x₀ (2 ^ κ) (b.ans j).scalars).b (opening x₀ (2 ^ κ) (b.ans 0).scalars).b).length = _
      rw [List.length_zipWith, l2, l2', min_self]
    · show Relation.eval (Relation.sub (opening x₀ (2 ^ κ) (b.ans j).scalars) (opening x₀ (2 ^ κ) (b.ans 0).scalars)) F G H B = 0
      rw [Relation.eval, Relation.sub, dot_sub_left _ _ _ (by rw [l1, l1']), dot_sub_left _ _ _ (by rw [l2, l2'])]
      rw [Relation.eval] at e e'
      linear_combination (norm := module) e - e'
  · exact hr q hq

/-- If the relations are trivial, the answers `c` are affine in the weights. -/
theorem answers_affine (hx₀ : x₀ ≠ 0) (hG : G.length = 2 ^ κ) (hH : H.length = 2 ^ κ)
    (hacc : b.Accepted E α N κ s F G H B x₀ V' W') (hz : ∀ q ∈ batchRels x₀ (2 ^ κ) b.scalars, q.IsZero) :
    ∃ δ, ∀ j < b.n, (b.ans j).c
      = ∑ k ∈ range (2 ^ κ), batchValue b.scalars k * ((b.ans j).t0 k + (b.ans j).t1 k) + δ := by
  have main : ∀ j < b.n, x₀ * (b.ans j).c = x₀ * dot (extract (b.ans 0).tree.scalars).a ((b.ans j).weights (2 ^ κ))
      + (x₀ * dot (extract (b.ans 0).tree.scalars).a (opening x₀ (2 ^ κ) (b.ans 0).scalars).b
        - (opening x₀ (2 ^ κ) (b.ans 0).scalars).u) := by
    intro j hj
    obtain ⟨⟨la, lb⟩, -, -, hc⟩ := extract_sound (x₀ • B) κ (b.ans j).tree _ G H (hacc.2 j hj).1 hG hH (hacc.2 j hj).2.2
    obtain ⟨⟨l1, l2, -⟩, -⟩ := opening_sound hG hH (hacc.2 j hj).1 (hacc.2 j hj).2
    obtain ⟨⟨l1', l2', -⟩, -⟩ := opening_sound hG hH (hacc.2 0 (by omega)).1 (hacc.2 0 (by omega)).2
    have lw : ((b.ans j).weights (2 ^ κ)).length = 2 ^ κ := by simp [BatchAnswer.weights]
    have hc := hc fun q hq => by
      obtain ⟨-, z1, z2, z3⟩ := hz ⟨0, q.a, q.b, x₀ * q.c⟩ (List.mem_flatMap.2 ⟨j, List.mem_range.2 hj,
        List.mem_cons_of_mem _ (List.mem_map.2 ⟨q, hq, rfl⟩)⟩)
      exact ⟨z1, z2, (mul_eq_zero.1 z3).resolve_left hx₀⟩
    obtain ⟨-, z1, z2, z3⟩ := hz _ (List.mem_flatMap.2 ⟨j, List.mem_range.2 hj, List.mem_cons_self⟩)
    have ea : (opening x₀ (2 ^ κ) (b.ans j).scalars).a = (opening x₀ (2 ^ κ) (b.ans 0).scalars).a :=
      eq_of_zipWith_sub_zero _ _ (by rw [l1, l1']) z1
    have eb : (opening x₀ (2 ^ κ) (b.ans j).scalars).b = (opening x₀ (2 ^ κ) (b.ans 0).scalars).b :=
      eq_of_zipWith_sub_zero _ _ (by rw [l2, l2']) z2
    have eu : (opening x₀ (2 ^ κ) (b.ans j).scalars).u = (opening x₀ (2 ^ κ) (b.ans 0).scalars).u := sub_eq_zero.1 z3
    have ea' : (extract (b.ans j).tree.scalars).a = (extract (b.ans 0).tree.scalars).a := ea
    rw [← eb, ← eu]
    show x₀ * (b.ans j).c = x₀ * dot (extract (b.ans 0).tree.scalars).a ((b.ans j).weights (2 ^ κ))
      + (x₀ * dot (extract (b.ans 0).tree.scalars).a (List.zipWith (· - ·) (extract (b.ans j).tree.scalars).b ((b.ans j).weights (2 ^ κ)))
        - (x₀ * (extract (b.ans j).tree.scalars).c - x₀ * (b.ans j).c))
    rw [dot_comm _ (List.zipWith _ _ _), dot_sub_left _ _ _ (by rw [lb, lw]), hc, ea', dot_comm (extract (b.ans j).tree.scalars).b,
      dot_comm ((b.ans j).weights _)]
    ring
  refine ⟨x₀⁻¹ * (x₀ * dot (extract (b.ans 0).tree.scalars).a (opening x₀ (2 ^ κ) (b.ans 0).scalars).b
        - (opening x₀ (2 ^ κ) (b.ans 0).scalars).u), fun j hj => ?_⟩
  have h := main j hj
  obtain ⟨⟨la, -⟩, -⟩ := extract_sound (x₀ • B) κ (b.ans 0).tree _ G H (hacc.2 0 (by omega)).1 hG hH (hacc.2 0 (by omega)).2.2
  have e : dot (extract (b.ans 0).tree.scalars).a ((b.ans j).weights (2 ^ κ))
      = ∑ k ∈ range (2 ^ κ), batchValue b.scalars k * ((b.ans j).t0 k + (b.ans j).t1 k) := by
    rw [BatchAnswer.weights, dot_range _ _ _ la]
    rfl
  rw [← e]
  field_simp
  linear_combination h

/-- A branch yields openings of `V k + x·V' k` and `W k + x·W' k` to the same value. -/
theorem branch_opens (hn : E.NonDegenerate) (hx₀ : x₀ ≠ 0) (hG : G.length = 2 ^ κ) (hH : H.length = 2 ^ κ)
    (hacc : b.Accepted E α N κ s F G H B x₀ V' W') (hz : ∀ q ∈ batchRels x₀ (2 ^ κ) b.scalars, q.IsZero) :
    ∀ k < 2 ^ κ,
      ∑ j ∈ range b.n, selector b.scalars (2 ^ κ) k false j • (b.ans j).Ω
        = α ^ (N - s.I k) • (s.V k + b.x • V' k) - (batchValue b.scalars k * α ^ (N + 1)) • E.genG1 ∧
      ∑ j ∈ range b.n, selector b.scalars (2 ^ κ) k true j • (b.ans j).Ω
        = α ^ (N - s.J k) • (s.W k + b.x • W' k) - (batchValue b.scalars k * α ^ (N + 1)) • E.genG1 := by
  obtain ⟨δ, hδ⟩ := answers_affine hx₀ hG hH hacc hz
  have gen : ∀ (k : ℕ) (side : Bool) (l : ℕ → Zr), k < 2 ^ κ → IsSelector b (2 ^ κ) k side l →
      ∑ j ∈ range b.n, l j • (b.ans j).Ω = (if side = false then α ^ (N - s.I k) • (s.V k + b.x • V' k)
        else α ^ (N - s.J k) • (s.W k + b.x • W' k)) - (batchValue b.scalars k * α ^ (N + 1)) • E.genG1 := by
    intro k side l hk ⟨h0, hl⟩
    have e1 : ∀ j ∈ range b.n, l j • (b.ans j).Ω
        = ∑ i ∈ range (2 ^ κ), ((l j * (b.ans j).t0 i) • α ^ (N - s.I i) • (s.V i + b.x • V' i)
          + (l j * (b.ans j).t1 i) • α ^ (N - s.J i) • (s.W i + b.x • W' i)) - ((l j * (b.ans j).c) * α ^ (N + 1)) • E.genG1 := by
      intro j hj
      rw [Opens.eq hn (hacc.2 j (Finset.mem_range.1 hj)).2.1, smul_sub, Finset.smul_sum, smul_smul, mul_assoc]
      congr 1
      refine Finset.sum_congr rfl fun i _ => ?_
      rw [smul_add, ← smul_smul, ← smul_smul]
    rw [Finset.sum_congr rfl e1, Finset.sum_sub_distrib, Finset.sum_comm, ← Finset.sum_smul, ← Finset.sum_mul]
    have e2 : ∀ i ∈ range (2 ^ κ), ∑ j ∈ range b.n, ((l j * (b.ans j).t0 i) • α ^ (N - s.I i) • (s.V i + b.x • V' i)
          + (l j * (b.ans j).t1 i) • α ^ (N - s.J i) • (s.W i + b.x • W' i))
        = if i = k then (if side = false then α ^ (N - s.I k) • (s.V k + b.x • V' k)
        else α ^ (N - s.J k) • (s.W k + b.x • W' k)) else 0 := by
      intro i hi
      rw [Finset.sum_add_distrib, ← Finset.sum_smul, ← Finset.sum_smul, (hl i (Finset.mem_range.1 hi)).1,
        (hl i (Finset.mem_range.1 hi)).2]
      by_cases hik : i = k
      · subst hik
        cases side <;> simp
      · simp [hik]
    have e3 : ∑ j ∈ range b.n, l j * (b.ans j).c = batchValue b.scalars k := by
      have : ∀ j ∈ range b.n, l j * (b.ans j).c = ∑ i ∈ range (2 ^ κ), (batchValue b.scalars i * (l j * (b.ans j).t0 i)
          + batchValue b.scalars i * (l j * (b.ans j).t1 i)) + l j * δ := by
        intro j hj
        rw [hδ j (Finset.mem_range.1 hj), mul_add, Finset.mul_sum]
        congr 1
        exact Finset.sum_congr rfl fun i _ => by ring
      rw [Finset.sum_congr rfl this, Finset.sum_add_distrib, ← Finset.sum_mul, h0, zero_mul, add_zero, Finset.sum_comm]
      have e4 : ∀ i ∈ range (2 ^ κ), ∑ j ∈ range b.n, (batchValue b.scalars i * (l j * (b.ans j).t0 i)
          + batchValue b.scalars i * (l j * (b.ans j).t1 i)) = if i = k then batchValue b.scalars k else 0 := by
        intro i hi
        rw [Finset.sum_add_distrib, ← Finset.mul_sum, ← Finset.mul_sum, (hl i (Finset.mem_range.1 hi)).1,
          (hl i (Finset.mem_range.1 hi)).2]
        by_cases hik : i = k
        · subst hik
          cases side <;> simp
        · simp [hik]
      rw [Finset.sum_congr rfl e4, Finset.sum_ite_eq' , if_pos (Finset.mem_range.2 hk)]
    rw [Finset.sum_congr rfl e2, Finset.sum_ite_eq', if_pos (Finset.mem_range.2 hk), e3]
  intro k hk
  have g1 := gen k false _ hk (selector_spec b _ k hk false hacc.1)
  have g2 := gen k true _ hk (selector_spec b _ k hk true hacc.1)
  rw [if_pos rfl] at g1
  rw [if_neg (by decide)] at g2
  exact ⟨g1, g2⟩

end PoL.Poe
