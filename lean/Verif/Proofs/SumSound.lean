import Verif.Spec.SumTranscripts
import Verif.Proofs.Soundness
import Mathlib.Tactic.LinearCombination
import Mathlib.Tactic.FieldSimp

/-!
# Special soundness of the sum argument: relation finder
-/

set_option linter.unusedSectionVars false

namespace PoL.Sum

open BP

variable {G1 : Type} [AddCommGroup G1] [Module Zr G1]

theorem dot_sub_left {M : Type} [AddCommGroup M] [Module Zr M] : ∀ (v w : List Zr) (g : List M), v.length = w.length →
    dot (List.zipWith (· - ·) v w) g = dot v g - dot w g
  | [], [], g, _ => by simp
  | a :: v, b :: w, [], _ => by simp
  | a :: v, b :: w, h :: g, hl => by
    have := dot_sub_left v w g (by simpa using hl)
    simp only [List.zipWith_cons_cons, dot_cons, this]
    module

theorem eq_of_zipWith_sub_zero : ∀ (v w : List Zr), v.length = w.length →
    (∀ x ∈ List.zipWith (· - ·) v w, x = 0) → v = w
  | [], [], _, _ => rfl
  | a :: v, b :: w, hl, h => by
    simp only [List.zipWith_cons_cons, List.mem_cons, forall_eq_or_imp] at h
    rw [eq_of_zipWith_sub_zero v w (by simpa using hl) h.2, sub_eq_zero.1 h.1]

/-- `v + x·w` -/
def lin (v w : List Zr) (x : Zr) : List Zr := List.zipWith (· + ·) v (w.map fun a => a * x)

/-- `(v - w)·y` -/
def slope (v w : List Zr) (y : Zr) : List Zr := (List.zipWith (· - ·) v w).map fun a => a * y

theorem lin_length {v w : List Zr} {x : Zr} {n : ℕ} (hv : v.length = n) (hw : w.length = n) :
    (lin v w x).length = n := by simp [lin, hv, hw]

theorem slope_length {v w : List Zr} {x : Zr} {n : ℕ} (hv : v.length = n) (hw : w.length = n) :
    (slope v w x).length = n := by simp [slope, hv, hw]

theorem dot_lin {M : Type} [AddCommGroup M] [Module Zr M] (v w : List Zr) (x : Zr) (g : List M)
    (h : v.length = w.length) : dot (lin v w x) g = dot v g + x • dot w g := by
  rw [lin, dot_add_left _ _ _ (by simpa using h), dot_mul_left]

theorem dot_slope {M : Type} [AddCommGroup M] [Module Zr M] (v w : List Zr) (x : Zr) (g : List M)
    (h : v.length = w.length) : dot (slope v w x) g = x • (dot v g - dot w g) := by
  rw [slope, dot_mul_left, dot_sub_left _ _ _ h]

theorem dot_lin_lin (v w p q : List Zr) (x : Zr) (h : v.length = w.length) (h' : p.length = q.length) :
    dot (lin v w x) (lin p q x) = dot v p + x * (dot v q + dot w p) + x ^ 2 * dot w q := by
  rw [dot_lin _ _ _ _ h, dot_comm v, dot_comm w, dot_lin _ _ _ _ h', dot_lin _ _ _ _ h',
    dot_comm p v, dot_comm q v, dot_comm p w, dot_comm q w]
  simp only [smul_eq_mul]; ring

/-- The relation found from the answer `i`: its extracted opening, minus what the opening of `V` and the opening
of `W` extracted from two answers (`f`, `w`, `h`, `u`) predict. -/
def findOne (x₀ c r ε : Zr) (v b : List Zr) (f : Zr) (w h : List Zr) (u : Zr) (a : Answer Unit) : Relation where
  f := - (a.ρ + r + a.x * f)
  a := List.zipWith (· - ·) (extract a.tree).a (lin v w a.x)
  b := List.zipWith (· - ·) (extract a.tree).b (lin b h a.x)
  u := x₀ * (extract a.tree).c - (ε + a.x * u + x₀ * (c * a.x))

/-- All relations found. -/
def findRelations (x₀ c r ε : Zr) (v b : List Zr) (a₁ a₂ a₃ : Answer Unit) : List Relation :=
  let y := (a₁.x - a₂.x)⁻¹
  let e₁ := extract a₁.tree
  let e₂ := extract a₂.tree
  let f := - (a₁.ρ - a₂.ρ) * y
  let w := slope e₁.a e₂.a y
  let h := slope e₁.b e₂.b y
  let u := x₀ * (e₁.c - e₂.c) * y - x₀ * c
  ((relations a₁.tree ++ relations a₂.tree ++ relations a₃.tree).map fun q => ⟨0, q.a, q.b, x₀ * q.c⟩) ++
    [a₁, a₂, a₃].map (findOne x₀ c r ε v b f w h u)

theorem three_points (A B C x₁ x₂ x₃ : Zr) (h12 : x₁ ≠ x₂) (h13 : x₁ ≠ x₃) (h23 : x₂ ≠ x₃)
    (h1 : A + x₁ * B + x₁ ^ 2 * C = 0) (h2 : A + x₂ * B + x₂ ^ 2 * C = 0)
    (h3 : A + x₃ * B + x₃ ^ 2 * C = 0) : A = 0 ∧ B = 0 ∧ C = 0 := by
  have e1 : (x₁ - x₂) * (B + (x₁ + x₂) * C) = 0 := by linear_combination h1 - h2
  have e2 : (x₁ - x₃) * (B + (x₁ + x₃) * C) = 0 := by linear_combination h1 - h3
  have f1 := (mul_eq_zero.1 e1).resolve_left (sub_ne_zero.2 h12)
  have f2 := (mul_eq_zero.1 e2).resolve_left (sub_ne_zero.2 h13)
  have e3 : (x₂ - x₃) * C = 0 := by linear_combination f1 - f2
  have hC := (mul_eq_zero.1 e3).resolve_left (sub_ne_zero.2 h23)
  have hB : B = 0 := by rw [hC] at f1; simpa using f1
  refine ⟨?_, hB, hC⟩
  rw [hB, hC] at h1; simpa using h1

/-- `V` may have a component `ε` in the direction of `U`. -/
theorem findRelations_sound (k : ℕ) (x₀ c r ε : Zr) (hx₀ : x₀ ≠ 0) (v b : List Zr) (hv : v.length = 2 ^ k)
    (hb : b.length = 2 ^ k) (F : G1) (Gs H : List G1) (hGs : Gs.length = 2 ^ k) (hH : H.length = 2 ^ k) (U V W : G1)
    (hV : V = r • F + dot v Gs + ε • U) (a₁ a₂ a₃ : Answer G1) (h12 : a₁.x ≠ a₂.x) (h13 : a₁.x ≠ a₃.x) (h23 : a₂.x ≠ a₃.x)
    (wf₁ : a₁.tree.WellFormed k) (wf₂ : a₂.tree.WellFormed k) (wf₃ : a₃.tree.WellFormed k)
    (acc₁ : a₁.Accepted x₀ c b F Gs H U V W) (acc₂ : a₂.Accepted x₀ c b F Gs H U V W)
    (acc₃ : a₃.Accepted x₀ c b F Gs H U V W) :
    (∀ q ∈ findRelations x₀ c r ε v b a₁.scalars a₂.scalars a₃.scalars,
      q.a.length = 2 ^ k ∧ q.b.length = 2 ^ k ∧ q.eval F Gs H U = 0) ∧
    ((∀ q ∈ findRelations x₀ c r ε v b a₁.scalars a₂.scalars a₃.scalars, q.IsZero) → x₀ * dot v b = ε) := by
  obtain ⟨⟨la₁, lb₁⟩, hP₁, hr₁, hz₁⟩ := extract_sound (x₀ • U) k a₁.tree _ Gs H wf₁ hGs hH acc₁
  obtain ⟨⟨la₂, lb₂⟩, hP₂, hr₂, hz₂⟩ := extract_sound (x₀ • U) k a₂.tree _ Gs H wf₂ hGs hH acc₂
  obtain ⟨⟨la₃, lb₃⟩, hP₃, hr₃, hz₃⟩ := extract_sound (x₀ • U) k a₃.tree _ Gs H wf₃ hGs hH acc₃
  have hne : a₁.x - a₂.x ≠ 0 := sub_ne_zero.2 h12
  set y := (a₁.x - a₂.x)⁻¹ with hy
  set e₁ := extract a₁.tree.scalars with he₁
  set e₂ := extract a₂.tree.scalars with he₂
  set e₃ := extract a₃.tree.scalars with he₃
  set f := - (a₁.ρ - a₂.ρ) * y with hf
  set w := slope e₁.a e₂.a y with hw
  set h := slope e₁.b e₂.b y with hh
  set u := x₀ * (e₁.c - e₂.c) * y - x₀ * c with hu
  have lw : w.length = 2 ^ k := slope_length la₁ la₂
  have lh : h.length = 2 ^ k := slope_length lb₁ lb₂
  have hWeq : W = f • F + dot w Gs + dot h H + u • U := by
    have hd : (a₁.x - a₂.x) • W = (a₁.x - a₂.x) • (f • F + dot w Gs + dot h H + u • U) := by
      rw [hw, hh, dot_slope _ _ _ _ (by omega), dot_slope _ _ _ _ (by omega), hf, hu]
      have q1 : (a₁.x - a₂.x) * y = 1 := mul_inv_cancel₀ hne
      have e : (a₁.x - a₂.x) • W = (e₁.eval Gs H (x₀ • U) - e₂.eval Gs H (x₀ • U)) - (a₁.ρ - a₂.ρ) • F
          - (x₀ * c * (a₁.x - a₂.x)) • U := by
        rw [← hP₁, ← hP₂]; module
      rw [e]
      simp only [Rep.eval]
      have : ∀ (s : Zr) (A : G1), ((a₁.x - a₂.x) * y * s) • A = s • A := fun s A => by rw [q1, one_mul]
      calc _ = ((1:Zr) * -(a₁.ρ - a₂.ρ)) • F + (1:Zr) • (dot e₁.a Gs - dot e₂.a Gs) + (1:Zr) • (dot e₁.b H - dot e₂.b H)
              + ((1:Zr) * (x₀ * (e₁.c - e₂.c)) - (a₁.x - a₂.x) * (x₀ * c)) • U := by module
        _ = _ := by rw [← q1]; module
    exact smul_right_injective _ hne hd
  have hone : ∀ (a : Answer G1), (extract a.tree.scalars).a.length = 2 ^ k → (extract a.tree.scalars).b.length = 2 ^ k →
      a.ρ • F + V + a.x • W + dot b H + (x₀ * (c * a.x)) • U = (extract a.tree.scalars).eval Gs H (x₀ • U) →
      (findOne x₀ c r ε v b f w h u a.scalars).a.length = 2 ^ k ∧
      (findOne x₀ c r ε v b f w h u a.scalars).b.length = 2 ^ k ∧
      (findOne x₀ c r ε v b f w h u a.scalars).eval F Gs H U = 0 := by
    intro a la lb hP
    refine ⟨by simp [findOne, Answer.scalars, la, lin_length hv lw],
      by simp [findOne, Answer.scalars, lb, lin_length hb lh], ?_⟩
    simp only [findOne, Relation.eval, Answer.scalars]
    rw [dot_sub_left _ _ _ (by rw [la, lin_length hv lw]), dot_sub_left _ _ _ (by rw [lb, lin_length hb lh]),
      dot_lin _ _ _ _ (by omega), dot_lin _ _ _ _ (by omega)]
    rw [hV, hWeq, Rep.eval, ← sub_eq_zero] at hP
    rw [← neg_eq_zero, ← hP]
    module
  constructor
  · intro q hq
    simp only [findRelations, List.mem_append, List.mem_map] at hq
    rcases hq with ⟨p, hp, rfl⟩ | ⟨a, ha, rfl⟩
    · have : p.Len (2 ^ k) ∧ p.eval Gs H (x₀ • U) = 0 := by
        rcases hp with (hp | hp) | hp
        · exact hr₁ p hp
        · exact hr₂ p hp
        · exact hr₃ p hp
      refine ⟨this.1.1, this.1.2, ?_⟩
      rw [← this.2, Relation.eval, Rep.eval]
      module
    · simp only [List.mem_cons, List.not_mem_nil, or_false] at ha
      rcases ha with rfl | rfl | rfl
      · exact hone a₁ la₁ lb₁ hP₁
      · exact hone a₂ la₂ lb₂ hP₂
      · exact hone a₃ la₃ lb₃ hP₃
  · intro hz
    have hrel : ∀ p, p ∈ relations a₁.tree.scalars ++ relations a₂.tree.scalars ++ relations a₃.tree.scalars → p.IsZero := by
      intro p hp
      obtain ⟨-, z1, z2, z3⟩ := hz ⟨0, p.a, p.b, x₀ * p.c⟩ (List.mem_append.2 (Or.inl (List.mem_map.2 ⟨p, hp, rfl⟩)))
      exact ⟨z1, z2, (mul_eq_zero.1 z3).resolve_left hx₀⟩
    have i₁ := hz₁ fun p hp => hrel p (by simp [hp])
    have i₂ := hz₂ fun p hp => hrel p (by simp [hp])
    have i₃ := hz₃ fun p hp => hrel p (by simp [hp])
    have hfin : ∀ a : Answer G1, a ∈ [a₁, a₂, a₃] → (extract a.tree.scalars).a.length = 2 ^ k →
        (extract a.tree.scalars).b.length = 2 ^ k →
        (extract a.tree.scalars).c = dot (extract a.tree.scalars).a (extract a.tree.scalars).b →
        (x₀ * dot v b - ε) + a.x * (x₀ * (dot v h + dot w b) - u - x₀ * c) + a.x ^ 2 * (x₀ * dot w h) = 0 := by
      intro a ha la lb hc
      obtain ⟨-, z1, z2, z3⟩ := hz (findOne x₀ c r ε v b f w h u a.scalars)
        (List.mem_append.2 (Or.inr (by
          simp only [List.mem_cons, List.not_mem_nil, or_false] at ha
          simp only [List.map_cons, List.map_nil, List.mem_cons, List.not_mem_nil, or_false]
          rcases ha with rfl | rfl | rfl
          · exact Or.inl rfl
          · exact Or.inr (Or.inl rfl)
          · exact Or.inr (Or.inr rfl))))
      have t1 := eq_of_zipWith_sub_zero _ _ (by rw [Answer.scalars, la, lin_length hv lw]) z1
      have t2 := eq_of_zipWith_sub_zero _ _ (by rw [Answer.scalars, lb, lin_length hb lh]) z2
      simp only [findOne, Answer.scalars] at t1 t2 z3
      rw [hc, t1, t2, dot_lin_lin _ _ _ _ _ (by omega) (by omega)] at z3
      linear_combination z3
    have := (three_points _ _ _ _ _ _ h12 h13 h23 (hfin a₁ (by simp) la₁ lb₁ i₁) (hfin a₂ (by simp) la₂ lb₂ i₂)
      (hfin a₃ (by simp) la₃ lb₃ i₃)).1
    exact sub_eq_zero.1 this

end PoL.Sum
