import Verif.Proofs.SumSound

/-! # Special soundness of the sum argument for a commitment nobody has opened -/

set_option linter.unusedSectionVars false

namespace PoL.Sum

open BP

variable {G1 : Type} [AddCommGroup G1] [Module Zr G1]

/-- The coefficients of `V + <b,H>`, computed from two answers. -/
def openingV (x₀ c : Zr) (a₁ a₂ : Answer Unit) : Relation :=
  let y := (a₁.x - a₂.x)⁻¹
  let e₁ := extract a₁.tree
  let e₂ := extract a₂.tree
  { f := -a₁.ρ - a₁.x * (-(a₁.ρ - a₂.ρ) * y)
    a := lin e₁.a (slope e₁.a e₂.a y) (-a₁.x)
    b := lin e₁.b (slope e₁.b e₂.b y) (-a₁.x)
    u := x₀ * e₁.c - a₁.x * (x₀ * (e₁.c - e₂.c) * y - x₀ * c) - x₀ * (c * a₁.x) }

theorem openingV_sound (k : ℕ) (x₀ c : Zr) (b : List Zr) (F : G1) (Gs H : List G1) (hGs : Gs.length = 2 ^ k)
    (hH : H.length = 2 ^ k) (U V W : G1) (a₁ a₂ : Answer G1) (h12 : a₁.x ≠ a₂.x) (wf₁ : a₁.tree.WellFormed k)
    (wf₂ : a₂.tree.WellFormed k) (acc₁ : a₁.Accepted x₀ c b F Gs H U V W) (acc₂ : a₂.Accepted x₀ c b F Gs H U V W) :
    (openingV x₀ c a₁.scalars a₂.scalars).a.length = 2 ^ k ∧ (openingV x₀ c a₁.scalars a₂.scalars).b.length = 2 ^ k ∧
      V + dot b H = (openingV x₀ c a₁.scalars a₂.scalars).eval F Gs H U := by
  obtain ⟨⟨la₁, lb₁⟩, hP₁, -, -⟩ := extract_sound (x₀ • U) k a₁.tree _ Gs H wf₁ hGs hH acc₁
  obtain ⟨⟨la₂, lb₂⟩, hP₂, -, -⟩ := extract_sound (x₀ • U) k a₂.tree _ Gs H wf₂ hGs hH acc₂
  have hne : a₁.x - a₂.x ≠ 0 := sub_ne_zero.2 h12
  simp only [openingV, Answer.scalars]
  set y := (a₁.x - a₂.x)⁻¹ with hy
  set e₁ := extract a₁.tree.scalars
  set e₂ := extract a₂.tree.scalars
  have l1 := slope_length (x := y) la₁ la₂
  have l2 := slope_length (x := y) lb₁ lb₂
  refine ⟨lin_length la₁ l1, lin_length lb₁ l2, ?_⟩
  rw [Relation.eval, dot_lin _ _ _ _ (by omega), dot_lin _ _ _ _ (by omega), dot_slope _ _ _ _ (by omega),
    dot_slope _ _ _ _ (by omega)]
  have q1 : (a₁.x - a₂.x) * y = 1 := mul_inv_cancel₀ hne
  simp only [Rep.eval] at hP₁ hP₂
  have key : ((a₁.x - a₂.x) * y) • (V + dot b H) = V + dot b H := by rw [q1, one_smul]
  have e1 : V + dot b H = (dot e₁.a Gs + dot e₁.b H + e₁.c • x₀ • U) - a₁.ρ • F - a₁.x • W - (x₀ * (c * a₁.x)) • U := by
    rw [← hP₁]; module
  have e2 : W = y • ((dot e₁.a Gs + dot e₁.b H + e₁.c • x₀ • U) - (dot e₂.a Gs + dot e₂.b H + e₂.c • x₀ • U)
      - (a₁.ρ - a₂.ρ) • F) - (x₀ * c) • U := by
    have : W = ((a₁.x - a₂.x) * y) • W := by rw [q1, one_smul]
    have h3 : ((a₁.x - a₂.x) * y) • ((x₀ * c) • U) = (x₀ * c) • U := by rw [q1, one_smul]
    rw [← hP₁, ← hP₂]
    calc W = ((a₁.x - a₂.x) * y) • W + ((a₁.x - a₂.x) * y) • ((x₀ * c) • U) - (x₀ * c) • U := by rw [← this, h3]; module
      _ = _ := by module
  rw [e1]
  conv_lhs => rw [e2]
  module

/-- All relations found. -/
def findRelationsV (x₀ c : Zr) (a₁ a₂ a₃ : Answer Unit) : List Relation :=
  let o := openingV x₀ c a₁ a₂
  findRelations x₀ c o.f o.u o.a o.b a₁ a₂ a₃

theorem findRelationsV_sound (k : ℕ) (x₀ c : Zr) (hx₀ : x₀ ≠ 0) (b : List Zr) (F : G1) (Gs H : List G1)
    (hGs : Gs.length = 2 ^ k) (hH : H.length = 2 ^ k) (U V W : G1) (a₁ a₂ a₃ : Answer G1) (h12 : a₁.x ≠ a₂.x)
    (h13 : a₁.x ≠ a₃.x) (h23 : a₂.x ≠ a₃.x)
    (wf₁ : a₁.tree.WellFormed k) (wf₂ : a₂.tree.WellFormed k) (wf₃ : a₃.tree.WellFormed k)
    (acc₁ : a₁.Accepted x₀ c b F Gs H U V W) (acc₂ : a₂.Accepted x₀ c b F Gs H U V W)
    (acc₃ : a₃.Accepted x₀ c b F Gs H U V W) :
    (∀ q ∈ findRelationsV x₀ c a₁.scalars a₂.scalars a₃.scalars,
      q.a.length = 2 ^ k ∧ q.b.length = 2 ^ k ∧ q.eval F Gs H U = 0) ∧
    ((∀ q ∈ findRelationsV x₀ c a₁.scalars a₂.scalars a₃.scalars, q.IsZero) →
      (openingV x₀ c a₁.scalars a₂.scalars).u
        = x₀ * dot (openingV x₀ c a₁.scalars a₂.scalars).a (openingV x₀ c a₁.scalars a₂.scalars).b) := by
  obtain ⟨l1, l2, hV⟩ := openingV_sound k x₀ c b F Gs H hGs hH U V W a₁ a₂ h12 wf₁ wf₂ acc₁ acc₂
  set o := openingV x₀ c a₁.scalars a₂.scalars with ho
  have hacc : ∀ a : Answer G1, a.Accepted x₀ c b F Gs H U V W →
      a.Accepted x₀ c o.b F Gs H U (o.f • F + dot o.a Gs + o.u • U) W := by
    intro a ha p hp
    have : a.ρ • F + (o.f • F + dot o.a Gs + o.u • U) + a.x • W + dot o.b H + (x₀ * (c * a.x)) • U
        = a.ρ • F + V + a.x • W + dot b H + (x₀ * (c * a.x)) • U := by
      rw [Relation.eval] at hV
      linear_combination (norm := module) -hV
    rw [this]
    exact ha p hp
  obtain ⟨s1, s2⟩ := findRelations_sound k x₀ c o.f o.u hx₀ o.a o.b l1 l2 F Gs H hGs hH U _ W rfl a₁ a₂ a₃ h12 h13 h23
    wf₁ wf₂ wf₃ (hacc _ acc₁) (hacc _ acc₂) (hacc _ acc₃)
  exact ⟨s1, fun hz => (s2 hz).symm⟩

end PoL.Sum
