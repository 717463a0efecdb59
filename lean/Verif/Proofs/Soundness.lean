import Verif.Proofs.InnerProd
import Verif.Spec.Transcripts
import Mathlib.Tactic.FinCases
import Mathlib.Data.Fin.VecNotation

/-!
# Extraction from a tree of inner-product transcripts (helper lemmas)
-/

set_option linter.unusedSectionVars false

namespace PoL.BP

/-- A quadratic with three distinct roots is zero. -/
theorem quad_zero {F : Type*} [Field F] {c2 c1 c0 s1 s2 s3 : F} (h12 : s1 ≠ s2) (h13 : s1 ≠ s3)
    (h23 : s2 ≠ s3) (e1 : c2 * s1 ^ 2 + c1 * s1 + c0 = 0) (e2 : c2 * s2 ^ 2 + c1 * s2 + c0 = 0)
    (e3 : c2 * s3 ^ 2 + c1 * s3 + c0 = 0) : c2 = 0 ∧ c1 = 0 ∧ c0 = 0 := by
  have d12 : c2 * (s1 + s2) + c1 = 0 := by
    apply mul_left_cancel₀ (sub_ne_zero.2 h12); linear_combination e1 - e2
  have d13 : c2 * (s1 + s3) + c1 = 0 := by
    apply mul_left_cancel₀ (sub_ne_zero.2 h13); linear_combination e1 - e3
  have h2 : c2 = 0 := by
    apply mul_left_cancel₀ (sub_ne_zero.2 h23); linear_combination d12 - d13
  subst h2
  have h1 : c1 = 0 := by linear_combination d12
  subst h1
  exact ⟨rfl, rfl, by linear_combination e1⟩

/-- A cubic with four distinct roots is zero. -/
theorem cubic_zero {F : Type*} [Field F] {c3 c2 c1 c0 s1 s2 s3 s4 : F} (h12 : s1 ≠ s2) (h13 : s1 ≠ s3)
    (h14 : s1 ≠ s4) (h23 : s2 ≠ s3) (h24 : s2 ≠ s4) (h34 : s3 ≠ s4)
    (e1 : c3 * s1 ^ 3 + c2 * s1 ^ 2 + c1 * s1 + c0 = 0)
    (e2 : c3 * s2 ^ 3 + c2 * s2 ^ 2 + c1 * s2 + c0 = 0)
    (e3 : c3 * s3 ^ 3 + c2 * s3 ^ 2 + c1 * s3 + c0 = 0)
    (e4 : c3 * s4 ^ 3 + c2 * s4 ^ 2 + c1 * s4 + c0 = 0) : c3 = 0 ∧ c2 = 0 ∧ c1 = 0 ∧ c0 = 0 := by
  have f1 : c3 * s1 ^ 2 + (c3 * s4 + c2) * s1 + (c3 * s4 ^ 2 + c2 * s4 + c1) = 0 := by
    apply mul_left_cancel₀ (sub_ne_zero.2 h14); linear_combination e1 - e4
  have f2 : c3 * s2 ^ 2 + (c3 * s4 + c2) * s2 + (c3 * s4 ^ 2 + c2 * s4 + c1) = 0 := by
    apply mul_left_cancel₀ (sub_ne_zero.2 h24); linear_combination e2 - e4
  have f3 : c3 * s3 ^ 2 + (c3 * s4 + c2) * s3 + (c3 * s4 ^ 2 + c2 * s4 + c1) = 0 := by
    apply mul_left_cancel₀ (sub_ne_zero.2 h34); linear_combination e3 - e4
  obtain ⟨g3, g2, g1⟩ := quad_zero h12 h13 h23 f1 f2 f3
  subst g3
  have g2' : c2 = 0 := by linear_combination g2
  subst g2'
  have g1' : c1 = 0 := by linear_combination g1
  subst g1'
  exact ⟨rfl, rfl, rfl, by linear_combination e1⟩

/-- `u·l + v·p + w·r`, entrywise. -/
def lin3 (u v w : Zr) (l p r : List Zr) : List Zr :=
  List.zipWith (· + ·) (List.zipWith (· + ·) (Vec.mul l u) (Vec.mul p v)) (Vec.mul r w)

theorem lin3_length {u v w : Zr} {l p r : List Zr} {n : ℕ} (hl : l.length = n) (hp : p.length = n)
    (hr : r.length = n) : (lin3 u v w l p r).length = n := by simp [lin3, hl, hp, hr]

theorem lin3_getElem {u v w : Zr} {l p r : List Zr} {n : ℕ} (hl : l.length = n) (hp : p.length = n)
    (hr : r.length = n) (j : ℕ) (hj : j < n) :
    (lin3 u v w l p r)[j]'(by rw [lin3_length hl hp hr]; exact hj)
      = u * l[j] + v * p[j] + w * r[j] := by
  simp [lin3, Vec.mul, mul_comm]

variable {G1 : Type} [AddCommGroup G1] [Module Zr G1]

theorem dot_lin3 {u v w : Zr} {l p r : List Zr} (hp : l.length = p.length) (hr : l.length = r.length)
    (g : List G1) : dot (lin3 u v w l p r) g = u • dot l g + v • dot p g + w • dot r g := by
  rw [lin3, dot_add_left _ _ _ (by simp [hp, ← hr]), dot_add_left _ _ _ (by simp [hp])]
  simp only [Vec.dot_mul]

/-- The combination of three representations. -/
def Rep.lin3 (u v w : Zr) (l p r : Rep) : Rep where
  a := BP.lin3 u v w l.a p.a r.a
  b := BP.lin3 u v w l.b p.b r.b
  c := u * l.c + v * p.c + w * r.c

/-- Both coefficient vectors have length `n`. -/
def Rep.Len (r : Rep) (n : ℕ) : Prop := r.a.length = n ∧ r.b.length = n

theorem Rep.lin3_len {u v w : Zr} {l p r : Rep} {n : ℕ} (hl : l.Len n) (hp : p.Len n) (hr : r.Len n) :
    (Rep.lin3 u v w l p r).Len n :=
  ⟨lin3_length hl.1 hp.1 hr.1, lin3_length hl.2 hp.2 hr.2⟩

theorem Rep.eval_lin3 {u v w : Zr} {l p r : Rep} {n : ℕ} (hl : l.Len n) (hp : p.Len n) (hr : r.Len n)
    (g h : List G1) (U : G1) : (Rep.lin3 u v w l p r).eval g h U
      = u • l.eval g h U + v • p.eval g h U + w • r.eval g h U := by
  simp only [Rep.eval, Rep.lin3]
  rw [dot_lin3 (by rw [hl.1, hp.1]) (by rw [hl.1, hr.1]), dot_lin3 (by rw [hl.2, hp.2]) (by rw [hl.2, hr.2])]
  module

/-- A representation over the folded generators, as one over the original generators. -/
def Rep.unfold (x : Zr) (r : Rep) : Rep where
  a := Vec.mul r.a x⁻¹ ++ Vec.mul r.a x
  b := Vec.mul r.b x ++ Vec.mul r.b x⁻¹
  c := r.c

theorem halvesG_eq (s t : Zr) (g : List G1) (n : ℕ) (h : g.length = 2 * n) :
    halvesG s t g = foldG s t n g := by
  have : g.length / 2 = n := by omega
  simp only [halvesG, foldG, this, Gv.mul, List.zipWith_map]

theorem dot_unfold (s t : Zr) (n : ℕ) (a : List Zr) (g : List G1) (ha : a.length = n)
    (hg : g.length = 2 * n) :
    dot (Vec.mul a s ++ Vec.mul a t) g = dot a (foldG s t n g) := by
  conv_lhs => rw [← List.take_append_drop n g]
  rw [dot_append _ _ _ _ (by simp [ha, hg]; omega), Vec.dot_mul, Vec.dot_mul, foldG,
    dot_add_right _ _ _ (by simp [hg]; omega), dot_gvmul, dot_gvmul]

theorem Rep.unfold_len {x : Zr} {r : Rep} {n : ℕ} (h : r.Len n) : (r.unfold x).Len (2 * n) := by
  constructor <;> simp [Rep.unfold, h.1, h.2] <;> omega

theorem Rep.eval_unfold {x : Zr} {r : Rep} {n : ℕ} (hr : r.Len n) {g h : List G1} (U : G1)
    (hg : g.length = 2 * n) (hh : h.length = 2 * n) :
    (r.unfold x).eval g h U = r.eval (foldG x⁻¹ x n g) (foldG x x⁻¹ n h) U := by
  simp only [Rep.eval, Rep.unfold]
  rw [dot_unfold _ _ n _ _ hr.1 hg, dot_unfold _ _ n _ _ hr.2 hh]

theorem Rep.isZero_of_unfold {x : Zr} (hx : x ≠ 0) {r : Rep} (h : (r.unfold x).IsZero) : r.IsZero := by
  obtain ⟨h1, h2, h3⟩ := h
  refine ⟨fun y hy => ?_, fun y hy => ?_, h3⟩
  · have := h1 (y * x) (by simp only [Rep.unfold, Vec.mul, List.mem_append, List.mem_map]; exact Or.inr ⟨y, hy, rfl⟩)
    exact (mul_eq_zero.1 this).resolve_right hx
  · have := h2 (y * x) (by simp only [Rep.unfold, Vec.mul, List.mem_append, List.mem_map]; exact Or.inl ⟨y, hy, rfl⟩)
    exact (mul_eq_zero.1 this).resolve_right hx

/-- Interpolation weights: from `s_i·E_i = s_i²·L + s_i·P + R` recover `L`, `P`, `R`. -/
def wL (s t u : Zr) : Zr := s * ((s - t) * (s - u))⁻¹
def wP (s t u : Zr) : Zr := -(s * (t + u) * ((s - t) * (s - u))⁻¹)
def wR (s t u : Zr) : Zr := s * (t * u) * ((s - t) * (s - u))⁻¹

def combine (w : Zr → Zr → Zr → Zr) (s1 s2 s3 : Zr) (e1 e2 e3 : Rep) : Rep :=
  Rep.lin3 (w s1 s2 s3) (w s2 s1 s3) (w s3 s1 s2) e1 e2 e3

/-- The extracted coefficients of `P`. -/
def extract : TTree Unit → Rep
  | .leaf a b => { a := [a], b := [b], c := a * b }
  | .node _ _ x₁ x₂ x₃ _ t₁ t₂ t₃ _ =>
    combine wP (x₁ ^ 2) (x₂ ^ 2) (x₃ ^ 2) ((extract t₁).unfold x₁) ((extract t₂).unfold x₂)
      ((extract t₃).unfold x₃)

/-- The relation between the fourth transcript of a node and the interpolation of the first three. -/
def nodeRelation (x₁ x₂ x₃ x₄ : Zr) (e₁ e₂ e₃ e₄ : Rep) : Rep :=
  let s := x₄ ^ 2
  let L := combine wL (x₁ ^ 2) (x₂ ^ 2) (x₃ ^ 2) e₁ e₂ e₃
  let P := combine wP (x₁ ^ 2) (x₂ ^ 2) (x₃ ^ 2) e₁ e₂ e₃
  let R := combine wR (x₁ ^ 2) (x₂ ^ 2) (x₃ ^ 2) e₁ e₂ e₃
  Rep.lin3 1 (-1) 0 (Rep.lin3 s 1 s⁻¹ L P R) e₄ e₄

/-- The relations among the generators computed from a tree. -/
def relations : TTree Unit → List Rep
  | .leaf _ _ => []
  | .node _ _ x₁ x₂ x₃ x₄ t₁ t₂ t₃ t₄ =>
    nodeRelation x₁ x₂ x₃ x₄ ((extract t₁).unfold x₁) ((extract t₂).unfold x₂) ((extract t₃).unfold x₃)
        ((extract t₄).unfold x₄)
      :: ((relations t₁).map (Rep.unfold x₁) ++ (relations t₂).map (Rep.unfold x₂)
        ++ (relations t₃).map (Rep.unfold x₃) ++ (relations t₄).map (Rep.unfold x₄))

theorem interp_L {M : Type*} [AddCommGroup M] [Module Zr M] {s1 s2 s3 : Zr} (h12 : s1 ≠ s2)
    (h13 : s1 ≠ s3) (h23 : s2 ≠ s3) (h1 : s1 ≠ 0) (h2 : s2 ≠ 0) (h3 : s3 ≠ 0) (L P R : M) :
    wL s1 s2 s3 • (s1 • L + P + s1⁻¹ • R) + wL s2 s1 s3 • (s2 • L + P + s2⁻¹ • R)
      + wL s3 s1 s2 • (s3 • L + P + s3⁻¹ • R) = L := by
  have d12 := sub_ne_zero.2 h12; have d13 := sub_ne_zero.2 h13; have d23 := sub_ne_zero.2 h23
  have d21 := sub_ne_zero.2 h12.symm; have d31 := sub_ne_zero.2 h13.symm; have d32 := sub_ne_zero.2 h23.symm
  have c1 : wL s1 s2 s3 * s1 + wL s2 s1 s3 * s2 + wL s3 s1 s2 * s3 = 1 := by
    simp only [wL]; field_simp; ring
  have c2 : wL s1 s2 s3 + wL s2 s1 s3 + wL s3 s1 s2 = 0 := by
    simp only [wL]; field_simp; ring
  have c3 : wL s1 s2 s3 * s1⁻¹ + wL s2 s1 s3 * s2⁻¹ + wL s3 s1 s2 * s3⁻¹ = 0 := by
    simp only [wL]; field_simp; ring
  calc _ = (wL s1 s2 s3 * s1 + wL s2 s1 s3 * s2 + wL s3 s1 s2 * s3) • L
        + (wL s1 s2 s3 + wL s2 s1 s3 + wL s3 s1 s2) • P
        + (wL s1 s2 s3 * s1⁻¹ + wL s2 s1 s3 * s2⁻¹ + wL s3 s1 s2 * s3⁻¹) • R := by module
    _ = L := by rw [c1, c2, c3]; module

theorem interp_P {M : Type*} [AddCommGroup M] [Module Zr M] {s1 s2 s3 : Zr} (h12 : s1 ≠ s2)
    (h13 : s1 ≠ s3) (h23 : s2 ≠ s3) (h1 : s1 ≠ 0) (h2 : s2 ≠ 0) (h3 : s3 ≠ 0) (L P R : M) :
    wP s1 s2 s3 • (s1 • L + P + s1⁻¹ • R) + wP s2 s1 s3 • (s2 • L + P + s2⁻¹ • R)
      + wP s3 s1 s2 • (s3 • L + P + s3⁻¹ • R) = P := by
  have d12 := sub_ne_zero.2 h12; have d13 := sub_ne_zero.2 h13; have d23 := sub_ne_zero.2 h23
  have d21 := sub_ne_zero.2 h12.symm; have d31 := sub_ne_zero.2 h13.symm; have d32 := sub_ne_zero.2 h23.symm
  have c1 : wP s1 s2 s3 * s1 + wP s2 s1 s3 * s2 + wP s3 s1 s2 * s3 = 0 := by
    simp only [wP]; field_simp; ring
  have c2 : wP s1 s2 s3 + wP s2 s1 s3 + wP s3 s1 s2 = 1 := by
    simp only [wP]; field_simp; ring
  have c3 : wP s1 s2 s3 * s1⁻¹ + wP s2 s1 s3 * s2⁻¹ + wP s3 s1 s2 * s3⁻¹ = 0 := by
    simp only [wP]; field_simp; ring
  calc _ = (wP s1 s2 s3 * s1 + wP s2 s1 s3 * s2 + wP s3 s1 s2 * s3) • L
        + (wP s1 s2 s3 + wP s2 s1 s3 + wP s3 s1 s2) • P
        + (wP s1 s2 s3 * s1⁻¹ + wP s2 s1 s3 * s2⁻¹ + wP s3 s1 s2 * s3⁻¹) • R := by module
    _ = P := by rw [c1, c2, c3]; module

theorem interp_R {M : Type*} [AddCommGroup M] [Module Zr M] {s1 s2 s3 : Zr} (h12 : s1 ≠ s2)
    (h13 : s1 ≠ s3) (h23 : s2 ≠ s3) (h1 : s1 ≠ 0) (h2 : s2 ≠ 0) (h3 : s3 ≠ 0) (L P R : M) :
    wR s1 s2 s3 • (s1 • L + P + s1⁻¹ • R) + wR s2 s1 s3 • (s2 • L + P + s2⁻¹ • R)
      + wR s3 s1 s2 • (s3 • L + P + s3⁻¹ • R) = R := by
  have d12 := sub_ne_zero.2 h12; have d13 := sub_ne_zero.2 h13; have d23 := sub_ne_zero.2 h23
  have d21 := sub_ne_zero.2 h12.symm; have d31 := sub_ne_zero.2 h13.symm; have d32 := sub_ne_zero.2 h23.symm
  have c1 : wR s1 s2 s3 * s1 + wR s2 s1 s3 * s2 + wR s3 s1 s2 * s3 = 0 := by
    simp only [wR]; field_simp; ring
  have c2 : wR s1 s2 s3 + wR s2 s1 s3 + wR s3 s1 s2 = 0 := by
    simp only [wR]; field_simp; ring
  have c3 : wR s1 s2 s3 * s1⁻¹ + wR s2 s1 s3 * s2⁻¹ + wR s3 s1 s2 * s3⁻¹ = 1 := by
    simp only [wR]; field_simp; ring
  calc _ = (wR s1 s2 s3 * s1 + wR s2 s1 s3 * s2 + wR s3 s1 s2 * s3) • L
        + (wR s1 s2 s3 + wR s2 s1 s3 + wR s3 s1 s2) • P
        + (wR s1 s2 s3 * s1⁻¹ + wR s2 s1 s3 * s2⁻¹ + wR s3 s1 s2 * s3⁻¹) • R := by module
    _ = R := by rw [c1, c2, c3]; module

/-- The interpolating quadratic takes the interpolated values. -/
theorem interp_value (s1 s2 s3 e1 e2 e3 : Zr) (h12 : s1 ≠ s2)
    (h13 : s1 ≠ s3) (h23 : s2 ≠ s3) (h1 : s1 ≠ 0) (h2 : s2 ≠ 0) (h3 : s3 ≠ 0) (s e : Zr)
    (hs : (s = s1 ∧ e = e1) ∨ (s = s2 ∧ e = e2) ∨ (s = s3 ∧ e = e3)) :
    s * (wL s1 s2 s3 * e1 + wL s2 s1 s3 * e2 + wL s3 s1 s2 * e3)
      + (wP s1 s2 s3 * e1 + wP s2 s1 s3 * e2 + wP s3 s1 s2 * e3)
      + s⁻¹ * (wR s1 s2 s3 * e1 + wR s2 s1 s3 * e2 + wR s3 s1 s2 * e3) = e := by
  have d12 := sub_ne_zero.2 h12; have d13 := sub_ne_zero.2 h13; have d23 := sub_ne_zero.2 h23
  have d21 := sub_ne_zero.2 h12.symm; have d31 := sub_ne_zero.2 h13.symm; have d32 := sub_ne_zero.2 h23.symm
  have key : ∀ s ≠ (0 : Zr), ∀ (c1 c2 c3 : Zr),
      s * wL s1 s2 s3 + wP s1 s2 s3 + s⁻¹ * wR s1 s2 s3 = c1 →
      s * wL s2 s1 s3 + wP s2 s1 s3 + s⁻¹ * wR s2 s1 s3 = c2 →
      s * wL s3 s1 s2 + wP s3 s1 s2 + s⁻¹ * wR s3 s1 s2 = c3 →
      s * (wL s1 s2 s3 * e1 + wL s2 s1 s3 * e2 + wL s3 s1 s2 * e3)
      + (wP s1 s2 s3 * e1 + wP s2 s1 s3 * e2 + wP s3 s1 s2 * e3)
      + s⁻¹ * (wR s1 s2 s3 * e1 + wR s2 s1 s3 * e2 + wR s3 s1 s2 * e3) = c1 * e1 + c2 * e2 + c3 * e3 := by
    intro s _ c1 c2 c3 k1 k2 k3
    rw [← k1, ← k2, ← k3]; ring
  rcases hs with ⟨rfl, rfl⟩ | ⟨rfl, rfl⟩ | ⟨rfl, rfl⟩
  · rw [key s h1 1 0 0]
    · ring
    · simp only [wL, wP, wR]; field_simp; ring
    · simp only [wL, wP, wR]; field_simp; ring
    · simp only [wL, wP, wR]; field_simp; ring
  · rw [key s h2 0 1 0]
    · ring
    · simp only [wL, wP, wR]; field_simp; ring
    · simp only [wL, wP, wR]; field_simp; ring
    · simp only [wL, wP, wR]; field_simp; ring
  · rw [key s h3 0 0 1]
    · ring
    · simp only [wL, wP, wR]; field_simp; ring
    · simp only [wL, wP, wR]; field_simp; ring
    · simp only [wL, wP, wR]; field_simp; ring


theorem foldV_getElem {s t : Zr} {n : ℕ} {a : List Zr} (h : a.length = 2 * n) (j : ℕ) (hj : j < n) :
    (foldV s t n a)[j]'(by rw [foldV_length h]; exact hj) = a[j] * s + a[n + j] * t := by
  simp [foldV, Vec.mul]

theorem halves_determined {n : ℕ} {l p r : List Zr} (hl : l.length = 2 * n) (hp : p.length = 2 * n)
    (hr : r.length = 2 * n) (x : Fin 4 → Zr) (a : Fin 4 → List Zr) (ha : ∀ i, (a i).length = n)
    (hx : ∀ i, x i ≠ 0) (hinj : ∀ i j, i ≠ j → x i ^ 2 ≠ x j ^ 2)
    (h : ∀ i, lin3 (x i ^ 2) 1 (x i ^ 2)⁻¹ l p r = Vec.mul (a i) (x i)⁻¹ ++ Vec.mul (a i) (x i)) :
    ∀ i, a i = foldV (x i) (x i)⁻¹ n p := by
  -- the entries in both halves
  have e1 : ∀ i (j : ℕ) (hj : j < n), x i ^ 2 * l[j] + p[j] + (x i ^ 2)⁻¹ * r[j]
      = (a i)[j]'(by rw [ha]; exact hj) * (x i)⁻¹ := by
    intro i j hj
    have h1 := lin3_getElem (u := x i ^ 2) (v := 1) (w := (x i ^ 2)⁻¹) hl hp hr j (by omega)
    have h2 : (lin3 (x i ^ 2) 1 (x i ^ 2)⁻¹ l p r)[j]'(by rw [lin3_length hl hp hr]; omega)
        = (a i)[j]'(by rw [ha]; exact hj) * (x i)⁻¹ := by
      have : j < (Vec.mul (a i) (x i)⁻¹).length := by simp [ha, hj]
      simp only [h i, List.getElem_append_left this]
      simp [Vec.mul]
    rw [← h2, h1, one_mul]
  have e2 : ∀ i (j : ℕ) (hj : j < n), x i ^ 2 * l[n + j] + p[n + j] + (x i ^ 2)⁻¹ * r[n + j]
      = (a i)[j]'(by rw [ha]; exact hj) * x i := by
    intro i j hj
    have h1 := lin3_getElem (u := x i ^ 2) (v := 1) (w := (x i ^ 2)⁻¹) hl hp hr (n + j) (by omega)
    have h2 : (lin3 (x i ^ 2) 1 (x i ^ 2)⁻¹ l p r)[n + j]'(by rw [lin3_length hl hp hr]; omega)
        = (a i)[j]'(by rw [ha]; exact hj) * x i := by
      simp only [h i]
      rw [List.getElem_append_right (by simp [ha])]
      simp [Vec.mul, ha]
    rw [← h2, h1, one_mul]
  -- the cubic vanishes at the four squares
  have key : ∀ (j : ℕ) (hj : j < n), l[j] = 0 ∧ p[j] - l[n + j] = 0 ∧ r[j] - p[n + j] = 0
      ∧ -r[n + j] = 0 := by
    intro j hj
    have cub : ∀ i, l[j] * (x i ^ 2) ^ 3 + (p[j] - l[n + j]) * (x i ^ 2) ^ 2
        + (r[j] - p[n + j]) * (x i ^ 2) + -r[n + j] = 0 := by
      intro i
      have hi := hx i
      have h1 := e1 i j hj
      have h2 := e2 i j hj
      field_simp at h1 h2
      linear_combination (x i) ^ 2 * h1 - h2
    exact cubic_zero (hinj 0 1 (by decide)) (hinj 0 2 (by decide)) (hinj 0 3 (by decide))
      (hinj 1 2 (by decide)) (hinj 1 3 (by decide)) (hinj 2 3 (by decide)) (cub 0) (cub 1) (cub 2) (cub 3)
  intro i
  apply List.ext_getElem (by rw [ha, foldV_length hp])
  intro j hj1 hj2
  have hj : j < n := by rw [ha] at hj1; exact hj1
  obtain ⟨k1, k2, k3, k4⟩ := key j hj
  rw [foldV_getElem hp j hj]
  have h1 := e1 i j hj
  have hi := hx i
  have hr' : r[j] = p[n + j] := sub_eq_zero.1 k3
  rw [k1, hr'] at h1
  field_simp at h1 ⊢
  linear_combination -h1

theorem acceptsTree_node {U : G1} {L R : G1} {x₁ x₂ x₃ x₄ : Zr} {t₁ t₂ t₃ t₄ : TTree G1} {P : G1}
    {g h : List G1} :
    (∀ p ∈ (TTree.node L R x₁ x₂ x₃ x₄ t₁ t₂ t₃ t₄).paths, acceptsWith U p.1 P g h p.2.1 p.2.2) ↔
    (∀ p ∈ t₁.paths, acceptsWith U ((x₁, L, R) :: p.1) P g h p.2.1 p.2.2) ∧
    (∀ p ∈ t₂.paths, acceptsWith U ((x₂, L, R) :: p.1) P g h p.2.1 p.2.2) ∧
    (∀ p ∈ t₃.paths, acceptsWith U ((x₃, L, R) :: p.1) P g h p.2.1 p.2.2) ∧
    (∀ p ∈ t₄.paths, acceptsWith U ((x₄, L, R) :: p.1) P g h p.2.1 p.2.2) := by
  simp only [TTree.paths, List.mem_append, List.mem_map]
  constructor
  · intro H
    exact ⟨fun p hp => H _ (Or.inl (Or.inl (Or.inl ⟨p, hp, rfl⟩))),
      fun p hp => H _ (Or.inl (Or.inl (Or.inr ⟨p, hp, rfl⟩))),
      fun p hp => H _ (Or.inl (Or.inr ⟨p, hp, rfl⟩)), fun p hp => H _ (Or.inr ⟨p, hp, rfl⟩)⟩
  · rintro ⟨h1, h2, h3, h4⟩ p (((⟨q, hq, rfl⟩ | ⟨q, hq, rfl⟩) | ⟨q, hq, rfl⟩) | ⟨q, hq, rfl⟩)
    · exact h1 q hq
    · exact h2 q hq
    · exact h3 q hq
    · exact h4 q hq

theorem list_eq_of_lin3_zero {l m : List Zr} {n : ℕ} (hl : l.length = n) (hm : m.length = n)
    (h : ∀ y ∈ lin3 1 (-1) 0 l m m, y = 0) : l = m := by
  apply List.ext_getElem (by rw [hl, hm])
  intro j h1 h2
  have hj : j < n := by omega
  have := h _ (List.getElem_mem (by rw [lin3_length hl hm hm]; exact hj : j < (lin3 1 (-1) 0 l m m).length))
  rw [lin3_getElem hl hm hm j hj] at this
  linear_combination this

theorem lin3_interp {n : ℕ} {a₁ a₂ a₃ : List Zr} (h1 : a₁.length = n) (h2 : a₂.length = n)
    (h3 : a₃.length = n) {s1 s2 s3 : Zr} (h12 : s1 ≠ s2) (h13 : s1 ≠ s3) (h23 : s2 ≠ s3) (z1 : s1 ≠ 0)
    (z2 : s2 ≠ 0) (z3 : s3 ≠ 0) (s : Zr) (a : List Zr) (ha : a.length = n)
    (hs : (s = s1 ∧ a = a₁) ∨ (s = s2 ∧ a = a₂) ∨ (s = s3 ∧ a = a₃)) :
    lin3 s 1 s⁻¹ (lin3 (wL s1 s2 s3) (wL s2 s1 s3) (wL s3 s1 s2) a₁ a₂ a₃)
      (lin3 (wP s1 s2 s3) (wP s2 s1 s3) (wP s3 s1 s2) a₁ a₂ a₃)
      (lin3 (wR s1 s2 s3) (wR s2 s1 s3) (wR s3 s1 s2) a₁ a₂ a₃) = a := by
  have hl := lin3_length (u := wL s1 s2 s3) (v := wL s2 s1 s3) (w := wL s3 s1 s2) h1 h2 h3
  have hp := lin3_length (u := wP s1 s2 s3) (v := wP s2 s1 s3) (w := wP s3 s1 s2) h1 h2 h3
  have hr := lin3_length (u := wR s1 s2 s3) (v := wR s2 s1 s3) (w := wR s3 s1 s2) h1 h2 h3
  apply List.ext_getElem (by rw [lin3_length hl hp hr, ha])
  intro j hj1 hj2
  have hj : j < n := by omega
  rw [lin3_getElem hl hp hr j hj, lin3_getElem h1 h2 h3 j hj, lin3_getElem h1 h2 h3 j hj,
    lin3_getElem h1 h2 h3 j hj, one_mul]
  apply interp_value s1 s2 s3 _ _ _ h12 h13 h23 z1 z2 z3
  rcases hs with ⟨rfl, rfl⟩ | ⟨rfl, rfl⟩ | ⟨rfl, rfl⟩
  · exact Or.inl ⟨rfl, rfl⟩
  · exact Or.inr (Or.inl ⟨rfl, rfl⟩)
  · exact Or.inr (Or.inr ⟨rfl, rfl⟩)

theorem extract_sound (U : G1) (k : ℕ) : ∀ (t : TTree G1) (P : G1) (g h : List G1), t.WellFormed k →
    g.length = 2 ^ k → h.length = 2 ^ k →
    (∀ p ∈ t.paths, acceptsWith U p.1 P g h p.2.1 p.2.2) →
    (extract t.scalars).Len (2 ^ k) ∧ P = (extract t.scalars).eval g h U ∧
      (∀ r ∈ relations t.scalars, r.Len (2 ^ k) ∧ r.eval g h U = 0) ∧
      ((∀ r ∈ relations t.scalars, r.IsZero) →
        (extract t.scalars).c = dot (extract t.scalars).a (extract t.scalars).b) := by
  induction k with
  | zero =>
    intro t P g h hwf hg hh hacc
    match t with
    | .node .. => simp [TTree.WellFormed] at hwf
    | .leaf a b =>
      obtain ⟨g0, h0, rfl, rfl, hP⟩ := hacc ([], a, b) (by simp [TTree.paths])
      refine ⟨⟨rfl, rfl⟩, ?_, by simp [relations, TTree.scalars], fun _ => by
        simp [extract, TTree.scalars]⟩
      simp [Rep.eval, extract, TTree.scalars, hP]
  | succ k ih =>
    intro t P g h hwf hg hh hacc
    match t with
    | .leaf a b => simp [TTree.WellFormed] at hwf
    | .node L R x₁ x₂ x₃ x₄ t₁ t₂ t₃ t₄ =>
      rw [pow_succ, mul_comm] at hg hh
      set n := 2 ^ k with hn
      obtain ⟨hnd, z1, z2, z3, z4, w1, w2, w3, w4⟩ := hwf
      simp only [List.nodup_cons, List.mem_cons, List.not_mem_nil, or_false, not_or,
        List.nodup_nil, and_true, not_false_eq_true] at hnd
      obtain ⟨⟨n12, n13, n14⟩, ⟨n23, n24⟩, n34⟩ := hnd
      rw [acceptsTree_node] at hacc
      obtain ⟨A1, A2, A3, A4⟩ := hacc
      simp only [acceptsWith, halvesG_eq _ _ g n hg, halvesG_eq _ _ h n hh] at A1 A2 A3 A4
      obtain ⟨l1, p1, r1, c1⟩ := ih t₁ _ _ _ w1 (foldG_length hg) (foldG_length hh) A1
      obtain ⟨l2, p2, r2, c2⟩ := ih t₂ _ _ _ w2 (foldG_length hg) (foldG_length hh) A2
      obtain ⟨l3, p3, r3, c3⟩ := ih t₃ _ _ _ w3 (foldG_length hg) (foldG_length hh) A3
      obtain ⟨l4, p4, r4, c4⟩ := ih t₄ _ _ _ w4 (foldG_length hg) (foldG_length hh) A4
      rw [← Rep.eval_unfold l1 U hg hh] at p1
      rw [← Rep.eval_unfold l2 U hg hh] at p2
      rw [← Rep.eval_unfold l3 U hg hh] at p3
      rw [← Rep.eval_unfold l4 U hg hh] at p4
      have q1 := Rep.unfold_len (x := x₁) l1
      have q2 := Rep.unfold_len (x := x₂) l2
      have q3 := Rep.unfold_len (x := x₃) l3
      have q4 := Rep.unfold_len (x := x₄) l4
      have s1 := pow_ne_zero 2 z1
      have s2 := pow_ne_zero 2 z2
      have s3 := pow_ne_zero 2 z3
      have s4 := pow_ne_zero 2 z4
      simp only [TTree.scalars, extract, relations]
      set E1 := extract t₁.scalars
      set E2 := extract t₂.scalars
      set E3 := extract t₃.scalars
      set E4 := extract t₄.scalars
      have hpow : 2 ^ (k + 1) = 2 * n := by rw [pow_succ, mul_comm]
      rw [hpow]
      have evL : (combine wL (x₁ ^ 2) (x₂ ^ 2) (x₃ ^ 2) (E1.unfold x₁) (E2.unfold x₂)
          (E3.unfold x₃)).eval g h U = L := by
        rw [combine, Rep.eval_lin3 q1 q2 q3, ← p1, ← p2, ← p3]
        exact interp_L n12 n13 n23 s1 s2 s3 L P R
      have evP : (combine wP (x₁ ^ 2) (x₂ ^ 2) (x₃ ^ 2) (E1.unfold x₁) (E2.unfold x₂)
          (E3.unfold x₃)).eval g h U = P := by
        rw [combine, Rep.eval_lin3 q1 q2 q3, ← p1, ← p2, ← p3]
        exact interp_P n12 n13 n23 s1 s2 s3 L P R
      have evR : (combine wR (x₁ ^ 2) (x₂ ^ 2) (x₃ ^ 2) (E1.unfold x₁) (E2.unfold x₂)
          (E3.unfold x₃)).eval g h U = R := by
        rw [combine, Rep.eval_lin3 q1 q2 q3, ← p1, ← p2, ← p3]
        exact interp_R n12 n13 n23 s1 s2 s3 L P R
      have lenC : ∀ w, (combine w (x₁ ^ 2) (x₂ ^ 2) (x₃ ^ 2) (E1.unfold x₁) (E2.unfold x₂)
          (E3.unfold x₃)).Len (2 * n) := fun w => Rep.lin3_len q1 q2 q3
      refine ⟨lenC _, evP.symm, ?_, ?_⟩
      · intro r hr
        simp only [List.mem_cons, List.mem_append, List.mem_map] at hr
        rcases hr with rfl | (((⟨r, hr, rfl⟩ | ⟨r, hr, rfl⟩) | ⟨r, hr, rfl⟩) | ⟨r, hr, rfl⟩)
        · refine ⟨Rep.lin3_len (Rep.lin3_len (lenC _) (lenC _) (lenC _)) q4 q4, ?_⟩
          simp only [nodeRelation]
          rw [Rep.eval_lin3 (Rep.lin3_len (lenC _) (lenC _) (lenC _)) q4 q4,
            Rep.eval_lin3 (lenC _) (lenC _) (lenC _), evL, evP, evR, ← p4]
          module
        · exact ⟨Rep.unfold_len (r1 r hr).1, by rw [Rep.eval_unfold (r1 r hr).1 U hg hh]; exact (r1 r hr).2⟩
        · exact ⟨Rep.unfold_len (r2 r hr).1, by rw [Rep.eval_unfold (r2 r hr).1 U hg hh]; exact (r2 r hr).2⟩
        · exact ⟨Rep.unfold_len (r3 r hr).1, by rw [Rep.eval_unfold (r3 r hr).1 U hg hh]; exact (r3 r hr).2⟩
        · exact ⟨Rep.unfold_len (r4 r hr).1, by rw [Rep.eval_unfold (r4 r hr).1 U hg hh]; exact (r4 r hr).2⟩
      · intro hz
        simp only [List.mem_cons, List.mem_append, List.mem_map] at hz
        have C1 := c1 fun r hr => Rep.isZero_of_unfold z1 (hz _ (Or.inr (Or.inl (Or.inl (Or.inl ⟨r, hr, rfl⟩)))))
        have C2 := c2 fun r hr => Rep.isZero_of_unfold z2 (hz _ (Or.inr (Or.inl (Or.inl (Or.inr ⟨r, hr, rfl⟩)))))
        have C3 := c3 fun r hr => Rep.isZero_of_unfold z3 (hz _ (Or.inr (Or.inl (Or.inr ⟨r, hr, rfl⟩))))
        have C4 := c4 fun r hr => Rep.isZero_of_unfold z4 (hz _ (Or.inr (Or.inr ⟨r, hr, rfl⟩)))
        obtain ⟨rza, rzb, rzc⟩ := hz _ (Or.inl rfl)
        set cL := combine wL (x₁ ^ 2) (x₂ ^ 2) (x₃ ^ 2) (E1.unfold x₁) (E2.unfold x₂) (E3.unfold x₃) with hcL
        set cP := combine wP (x₁ ^ 2) (x₂ ^ 2) (x₃ ^ 2) (E1.unfold x₁) (E2.unfold x₂) (E3.unfold x₃) with hcP
        set cR := combine wR (x₁ ^ 2) (x₂ ^ 2) (x₃ ^ 2) (E1.unfold x₁) (E2.unfold x₂) (E3.unfold x₃) with hcR
        have i4a : lin3 (x₄ ^ 2) 1 (x₄ ^ 2)⁻¹ cL.a cP.a cR.a = (E4.unfold x₄).a :=
          list_eq_of_lin3_zero (lin3_length (lenC _).1 (lenC _).1 (lenC _).1) q4.1 rza
        have i4b : lin3 (x₄ ^ 2) 1 (x₄ ^ 2)⁻¹ cL.b cP.b cR.b = (E4.unfold x₄).b :=
          list_eq_of_lin3_zero (lin3_length (lenC _).2 (lenC _).2 (lenC _).2) q4.2 rzb
        have i4c : x₄ ^ 2 * cL.c + cP.c + (x₄ ^ 2)⁻¹ * cR.c = E4.c := by
          have : 1 * (x₄ ^ 2 * cL.c + 1 * cP.c + (x₄ ^ 2)⁻¹ * cR.c) + -1 * E4.c + 0 * E4.c = 0 := rzc
          linear_combination this
        let x : Fin 4 → Zr := ![x₁, x₂, x₃, x₄]
        let Es : Fin 4 → Rep := ![E1, E2, E3, E4]
        have hx : ∀ i, x i ≠ 0 := by intro i; fin_cases i <;> assumption
        have hinj : ∀ i j, i ≠ j → x i ^ 2 ≠ x j ^ 2 := by
          intro i j hij
          fin_cases i <;> fin_cases j <;>
            first
            | exact absurd rfl hij
            | assumption
            | (apply Ne.symm; assumption)
        have ha : ∀ i, lin3 (x i ^ 2) 1 (x i ^ 2)⁻¹ cL.a cP.a cR.a
            = Vec.mul (Es i).a (x i)⁻¹ ++ Vec.mul (Es i).a (x i) := by
          intro i
          fin_cases i
          · exact lin3_interp q1.1 q2.1 q3.1 n12 n13 n23 s1 s2 s3 _ _ q1.1 (Or.inl ⟨rfl, rfl⟩)
          · exact lin3_interp q1.1 q2.1 q3.1 n12 n13 n23 s1 s2 s3 _ _ q2.1 (Or.inr (Or.inl ⟨rfl, rfl⟩))
          · exact lin3_interp q1.1 q2.1 q3.1 n12 n13 n23 s1 s2 s3 _ _ q3.1 (Or.inr (Or.inr ⟨rfl, rfl⟩))
          · exact i4a
        have hb : ∀ i, lin3 (x i ^ 2) 1 (x i ^ 2)⁻¹ cL.b cP.b cR.b
            = Vec.mul (Es i).b (x i) ++ Vec.mul (Es i).b (x i)⁻¹ := by
          intro i
          fin_cases i
          · exact lin3_interp q1.2 q2.2 q3.2 n12 n13 n23 s1 s2 s3 _ _ q1.2 (Or.inl ⟨rfl, rfl⟩)
          · exact lin3_interp q1.2 q2.2 q3.2 n12 n13 n23 s1 s2 s3 _ _ q2.2 (Or.inr (Or.inl ⟨rfl, rfl⟩))
          · exact lin3_interp q1.2 q2.2 q3.2 n12 n13 n23 s1 s2 s3 _ _ q3.2 (Or.inr (Or.inr ⟨rfl, rfl⟩))
          · exact i4b
        have hc : ∀ i, x i ^ 2 * cL.c + cP.c + (x i ^ 2)⁻¹ * cR.c = (Es i).c := by
          intro i
          fin_cases i
          · exact interp_value _ _ _ _ _ _ n12 n13 n23 s1 s2 s3 _ _ (Or.inl ⟨rfl, rfl⟩)
          · exact interp_value _ _ _ _ _ _ n12 n13 n23 s1 s2 s3 _ _ (Or.inr (Or.inl ⟨rfl, rfl⟩))
          · exact interp_value _ _ _ _ _ _ n12 n13 n23 s1 s2 s3 _ _ (Or.inr (Or.inr ⟨rfl, rfl⟩))
          · exact i4c
        have hlen : ∀ i, (Es i).Len n := by intro i; fin_cases i <;> assumption
        have hC : ∀ i, (Es i).c = dot (Es i).a (Es i).b := by intro i; fin_cases i <;> assumption
        have da := halves_determined (lenC wL).1 (lenC wP).1 (lenC wR).1 x (fun i => (Es i).a)
          (fun i => (hlen i).1) hx hinj ha
        -- for `b` the halves and `L`, `R` are exchanged
        have db := halves_determined (lenC wR).2 (lenC wP).2 (lenC wL).2 (fun i => (x i)⁻¹)
          (fun i => (Es i).b) (fun i => (hlen i).2) (fun i => inv_ne_zero (hx i))
          (fun i j hij => by
            rw [inv_pow, inv_pow]
            exact fun h => hinj i j hij (inv_injective h))
          (fun i => by
            rw [inv_inv, ← hb i]
            have e : ((x i)⁻¹ ^ 2)⁻¹ = x i ^ 2 := by rw [inv_pow, inv_inv]
            have e' : (x i)⁻¹ ^ 2 = (x i ^ 2)⁻¹ := inv_pow _ _
            rw [e, e']
            apply List.ext_getElem (by
              rw [lin3_length (lenC wR).2 (lenC wP).2 (lenC wL).2,
                lin3_length (lenC wL).2 (lenC wP).2 (lenC wR).2])
            intro j h1 h2
            have hj : j < 2 * n := by rw [lin3_length (lenC wR).2 (lenC wP).2 (lenC wL).2] at h1; exact h1
            rw [lin3_getElem (lenC wR).2 (lenC wP).2 (lenC wL).2 j hj,
              lin3_getElem (lenC wL).2 (lenC wP).2 (lenC wR).2 j hj]
            ring)
        have quad : ∀ i, (cL.c - dot (cP.a.take n) (cP.b.drop n)) * (x i ^ 2) ^ 2
            + (cP.c - dot cP.a cP.b) * (x i ^ 2) + (cR.c - dot (cP.a.drop n) (cP.b.take n)) = 0 := by
          intro i
          have h1 := hc i
          rw [hC i, show (Es i).a = _ from da i, show (Es i).b = _ from db i, inv_inv,
            dot_foldV (lenC wP).1 (lenC wP).2] at h1
          rw [dot_take_drop n cP.a cP.b]
          have hi := hx i
          field_simp at h1
          linear_combination h1
        exact sub_eq_zero.1 (quad_zero (hinj 0 1 (by decide)) (hinj 0 2 (by decide)) (hinj 1 2 (by decide))
          (quad 0) (quad 1) (quad 2)).2.1

end PoL.BP
