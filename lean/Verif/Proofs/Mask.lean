import Mathlib.Data.Set.Finite.List
import Verif.Proofs.Vec
import Verif.Spec.Privacy

/-!
# Masked vectors and matching of random values (helper lemmas)
-/

set_option linter.unusedSectionVars false

namespace PoL

/-- Two sets are in bijection if each element of the one is related to exactly one of the other. -/
theorem equiv_of_matching {A B : Type} (Rel : A → B → Prop) (h1 : ∀ a, ∃ b, Rel a b) (h2 : ∀ b, ∃ a, Rel a b)
    (u1 : ∀ a b b', Rel a b → Rel a b' → b = b') (u2 : ∀ a a' b, Rel a b → Rel a' b → a = a') : Nonempty (A ≃ B) := by
  choose f hf using h1
  choose g hg using h2
  exact ⟨⟨f, g, fun a => u2 _ _ _ (hg (f a)) (hf a), fun b => u1 _ _ _ (hf (g b)) (hg b)⟩⟩

theorem finite_fiber {R : Type} {S P : R → Prop} (fin : Finite {r : R // S r}) : Finite {r : R // S r ∧ P r} :=
  Finite.of_injective (fun r => (⟨r.1, r.2.1⟩ : {r : R // S r})) fun a b h => by
    simpa [Subtype.ext_iff] using h

theorem equallyLikely_of_equiv {R O : Type} {S : R → Prop} {f g : R → Option O} {o : O} (fin : Finite {r : R // S r})
    (h : Nonempty ({r : R // S r ∧ f r = some o} ≃ {r : R // S r ∧ g r = some o})) : EquallyLikely S f g o :=
  ⟨fin, h.elim fun e => Nat.card_congr e⟩

theorem EquallyLikely.equiv {R O : Type} {S : R → Prop} {f g : R → Option O} {o : O} (h : EquallyLikely S f g o) :
    Nonempty ({r : R // S r ∧ f r = some o} ≃ {r : R // S r ∧ g r = some o}) := by
  have := finite_fiber (P := fun r => f r = some o) h.1
  have := finite_fiber (P := fun r => g r = some o) h.1
  exact Finite.card_eq.1 h.2

theorem equallyLikely_of_matching {R O : Type} {S : R → Prop} {f g : R → Option O} {o : O}
    (fin : Finite {r : R // S r}) (Rel : R → R → Prop)
    (h1 : ∀ a, S a → f a = some o → ∃ b, S b ∧ g b = some o ∧ Rel a b)
    (h2 : ∀ b, S b → g b = some o → ∃ a, S a ∧ f a = some o ∧ Rel a b)
    (u1 : ∀ a b b', S a → f a = some o → S b → g b = some o → S b' → g b' = some o → Rel a b → Rel a b' → b = b')
    (u2 : ∀ a a' b, S a → f a = some o → S a' → f a' = some o → S b → g b = some o → Rel a b → Rel a' b → a = a') :
    EquallyLikely S f g o := by
  refine equallyLikely_of_equiv fin (equiv_of_matching (fun a b => Rel a.1 b.1) ?_ ?_ ?_ ?_)
  · rintro ⟨a, ha, fa⟩
    obtain ⟨b, hb, gb, r⟩ := h1 a ha fa
    exact ⟨⟨b, hb, gb⟩, r⟩
  · rintro ⟨b, hb, gb⟩
    obtain ⟨a, ha, fa, r⟩ := h2 b hb gb
    exact ⟨⟨a, ha, fa⟩, r⟩
  · rintro ⟨a, ha, fa⟩ ⟨b, hb, gb⟩ ⟨b', hb', gb'⟩ r r'
    exact Subtype.ext (u1 a b b' ha fa hb gb hb' gb' r r')
  · rintro ⟨a, ha, fa⟩ ⟨a', ha', fa'⟩ ⟨b, hb, gb⟩ r r'
    exact Subtype.ext (u2 a a' b ha fa ha' fa' hb gb r r')

theorem EquallyLikely.symm {R O : Type} {S : R → Prop} {f g : R → Option O} {o : O} (h : EquallyLikely S f g o) :
    EquallyLikely S g f o := ⟨h.1, h.2.symm⟩

theorem EquallyLikely.trans {R O : Type} {S : R → Prop} {f g k : R → Option O} {o : O} (h : EquallyLikely S f g o)
    (h' : EquallyLikely S g k o) : EquallyLikely S f k o := ⟨h.1, h.2.trans h'.2⟩

/-- Outputs that correspond are equally likely together. -/
theorem EquallyLikely.congr {R O P : Type} {S : R → Prop} {f g : R → Option O} {o : O} {f' g' : R → Option P} {p : P}
    (h : EquallyLikely S f g o) (hf : ∀ r, S r → (f' r = some p ↔ f r = some o))
    (hg : ∀ r, S r → (g' r = some p ↔ g r = some o)) : EquallyLikely S f' g' p := by
  refine ⟨h.1, ?_⟩
  rw [Nat.card_congr (Equiv.subtypeEquivRight fun r => and_congr_right (hf r)), h.2]
  exact (Nat.card_congr (Equiv.subtypeEquivRight fun r => and_congr_right (hg r))).symm

/-! ### Finitely many random values -/

instance : Finite Zr := inferInstanceAs (Finite (ZMod order))

theorem finite_lists {A : Type} [Finite A] (n : ℕ) : Finite {l : List A // l.length = n} :=
  (List.finite_length_eq A n).to_subtype

/-- `v + x·w`. -/
def mask (v w : List Zr) (x : Zr) : List Zr := List.zipWith (· + ·) v (Vec.mul w x)

theorem mask_length {v w : List Zr} {x : Zr} {n : ℕ} (hv : v.length = n) (hw : w.length = n) : (mask v w x).length = n := by
  simp [mask, hv, hw]

variable {M : Type} [AddCommGroup M] [Module Zr M]

theorem dot_mask {v w : List Zr} (x : Zr) (g : List M) (h : v.length = w.length) :
    dot (mask v w x) g = dot v g + x • dot w g := by
  rw [mask, dot_add_left _ _ _ (by simp [h]), Vec.dot_mul]

theorem mask_exists {v v' w : List Zr} {x : Zr} {n : ℕ} (hx : x ≠ 0) (hv : v.length = n) (hv' : v'.length = n)
    (hw : w.length = n) : ∃ w', w'.length = n ∧ mask v w x = mask v' w' x := by
  refine ⟨List.zipWith (fun a d => a + x⁻¹ * d) w (List.zipWith (· - ·) v v'), by simp [hv, hv', hw], ?_⟩
  apply List.ext_getElem (by simp [mask, hv, hv', hw])
  intro i h1 h2
  simp only [mask, Vec.mul, List.getElem_zipWith, List.getElem_map]
  field_simp
  ring

theorem mask_inj {v w w' : List Zr} {x : Zr} {n : ℕ} (hx : x ≠ 0) (hv : v.length = n) (hw : w.length = n)
    (hw' : w'.length = n) (h : mask v w x = mask v w' x) : w = w' := by
  apply List.ext_getElem (by omega)
  intro i h1 h2
  have e : (mask v w x)[i]? = (mask v w' x)[i]? := by rw [h]
  rw [List.getElem?_eq_getElem (by simp [mask]; omega), List.getElem?_eq_getElem (by simp [mask]; omega), Option.some_inj] at e
  simp only [mask, Vec.mul, List.getElem_zipWith, List.getElem_map, add_right_inj] at e
  exact mul_right_cancel₀ hx e

/-- Without the factor, masked vectors with the same masked value differ by what the vectors differ by. -/
theorem mask_dot_eq {v v' w w' : List Zr} {x : Zr} {n : ℕ} (hv : v.length = n) (hv' : v'.length = n)
    (hw : w.length = n) (hw' : w'.length = n) (h : mask v w x = mask v' w' x) (g : List M) :
    dot v g + x • dot w g = dot v' g + x • dot w' g := by
  rw [← dot_mask x g (by omega), ← dot_mask x g (by omega), h]

/-- Group elements with the same multiple. -/
theorem smul_cancel {x : Zr} (hx : x ≠ 0) {a b : M} (h : x • a = x • b) : a = b := by
  have := congrArg (x⁻¹ • ·) h
  simpa [smul_smul, inv_mul_cancel₀ hx] using this

theorem smul_scalar_cancel {x y : Zr} {F : M} (hF : F ≠ 0) (h : x • F = y • F) : x = y := by
  have e : (x - y) • F = 0 := by rw [sub_smul, h, sub_self]
  rcases smul_eq_zero.1 e with e | e
  · exact sub_eq_zero.1 e
  · exact absurd e hF

end PoL
