import Verif.Proofs.Rewind
import Verif.Proofs.RangeHonest
import Verif.Spec.RangeProvers
import Mathlib.Algebra.Order.Field.Rat
import Mathlib.Algebra.BigOperators.Field
import Mathlib.Tactic.FieldSimp
import Mathlib.Tactic.Positivity.Finset
import Mathlib.Data.Fintype.EquivFin

/-!
# Helper lemmas for C84: provers of the reduction and of the range proof that are accepted often can be rewound
-/

set_option linter.unusedSectionVars false

namespace PoL

open Finset

section
variable {α β : Type}

open Classical in
/-- The fraction of the elements of `S` with a property. -/
noncomputable def rate (S : Finset α) (p : α → Prop) : ℚ := (#{a ∈ S | p a} : ℚ) / #S

theorem rate_le_one (S : Finset α) (p : α → Prop) : rate S p ≤ 1 := by
  classical
  apply div_le_one_of_le₀ _ (by positivity)
  exact_mod_cast Finset.card_filter_le _ _

theorem exists_of_rate {S : Finset α} {p : α → Prop} (h : 0 < rate S p) : ∃ a ∈ S, p a := by
  classical
  by_contra hc
  push Not at hc
  rw [rate, Finset.filter_false_of_mem hc] at h
  simp at h

theorem rate_prod (S : Finset α) (T : Finset β) (P : α → β → Prop) :
    rate (S ×ˢ T) (fun q => P q.1 q.2) = (∑ a ∈ S, rate T (P a)) / #S := by
  classical
  have : (#{q ∈ S ×ˢ T | P q.1 q.2} : ℚ) = ∑ a ∈ S, (#{b ∈ T | P a b} : ℚ) := by
    rw [← Nat.cast_sum]
    congr 1
    rw [← Finset.card_sigma]
    refine Finset.card_bij (fun q _ => ⟨q.1, q.2⟩) ?_ ?_ ?_
    · intro q hq
      simp only [Finset.mem_filter, Finset.mem_product, Finset.mem_sigma] at hq ⊢
      exact ⟨hq.1.1, hq.1.2, hq.2⟩
    · intro q _ q' _ h
      simp only [Sigma.mk.injEq, heq_eq_eq] at h
      exact Prod.ext h.1 h.2
    · rintro ⟨a, b⟩ h
      simp only [Finset.mem_filter, Finset.mem_sigma] at h
      exact ⟨(a, b), by simp [h.1, h.2.1, h.2.2], rfl⟩
  simp only [rate]
  rw [← Finset.sum_div, Finset.card_product, Nat.cast_mul]
  rw [show ((∑ a ∈ S, (#{b ∈ T | P a b} : ℚ)) / #T) / #S = (∑ a ∈ S, (#{b ∈ T | P a b} : ℚ)) / (#S * #T) by
    rw [div_div, mul_comm]]
  congr 1

open Classical in
/-- Forking: if the fraction of pairs is large, there are many first components with a large fraction. -/
theorem fork (S : Finset α) (T : Finset β) (P : α → β → Prop) (m : ℕ) (δ : ℚ) (hδ : 0 ≤ δ) (hS : 0 < #S)
    (h : m / #S + δ < rate (S ×ˢ T) fun q => P q.1 q.2) : m < #{a ∈ S | δ < rate T (P a)} := by
  by_contra hc
  push Not at hc
  rw [rate_prod] at h
  have h1 : ∑ a ∈ S, rate T (P a) ≤ ∑ a ∈ S, ((if δ < rate T (P a) then 1 else 0) + δ) := by
    apply Finset.sum_le_sum
    intro x _
    have := rate_le_one T (P x)
    split <;> linarith
  rw [Finset.sum_add_distrib, Finset.sum_const, ← Finset.sum_filter, Finset.sum_const, nsmul_eq_mul, nsmul_eq_mul,
    mul_one] at h1
  have h2 : (#{a ∈ S | δ < rate T (P a)} : ℚ) ≤ m := by exact_mod_cast hc
  have hS' : (0 : ℚ) < #S := by exact_mod_cast hS
  rw [lt_div_iff₀ hS', add_mul, div_mul_cancel₀ _ hS'.ne'] at h
  linarith

theorem rate_congr_bij {S : Finset α} {T : Finset β} (f : α → β) (hf : ∀ a ∈ S, f a ∈ T)
    (hinj : ∀ a ∈ S, ∀ b ∈ S, f a = f b → a = b) (hsurj : ∀ b ∈ T, ∃ a ∈ S, f a = b) (p : β → Prop) :
    rate T p = rate S fun a => p (f a) := by
  classical
  have h1 : #S = #T := Finset.card_bij (fun a _ => f a) hf (fun a ha b hb h => hinj a ha b hb h)
    fun b hb => by obtain ⟨a, ha, e⟩ := hsurj b hb; exact ⟨a, ha, e⟩
  have h2 : #{a ∈ S | p (f a)} = #{b ∈ T | p b} := by
    refine Finset.card_bij (fun a _ => f a) ?_ ?_ ?_
    · intro a ha
      rw [Finset.mem_filter] at ha ⊢
      exact ⟨hf a ha.1, ha.2⟩
    · intro a ha b hb h
      exact hinj a (Finset.mem_filter.1 ha).1 b (Finset.mem_filter.1 hb).1 h
    · intro b hb
      rw [Finset.mem_filter] at hb
      obtain ⟨a, ha, rfl⟩ := hsurj b hb.1
      exact ⟨a, Finset.mem_filter.2 ⟨ha, hb.2⟩, rfl⟩
  rw [rate, rate, h1, ← h2]

end

/-- The non-zero challenges. -/
def nonzeroCh : Finset Zr := univ.erase 0

theorem card_nonzeroCh : #nonzeroCh = order - 1 := by
  rw [nonzeroCh, Finset.card_erase_of_mem (Finset.mem_univ _), Finset.card_univ, ZMod.card]

theorem order_pred_cast : ((order - 1 : ℕ) : ℚ) = (order : ℚ) - 1 := by
  rw [Nat.cast_sub (by decide +kernel), Nat.cast_one]

theorem order_pred_pos : 0 < (order : ℚ) - 1 := by
  rw [← order_pred_cast]
  exact_mod_cast (by decide +kernel : 0 < order - 1)

theorem nonzeroCh_pos : 0 < #nonzeroCh := by
  rw [card_nonzeroCh]; decide +kernel

theorem univ_pos : 0 < #(univ : Finset Zr) := Finset.card_pos.2 ⟨0, Finset.mem_univ _⟩

theorem rate_challengeLists_succ {β : Type} (k : ℕ) (T : Finset β) (P : List Zr → β → Prop) :
    rate (challengeLists (k + 1) ×ˢ T) (fun q => P q.1 q.2)
      = rate (nonzeroCh ×ˢ (challengeLists k ×ˢ T)) fun q => P (q.1 :: q.2.1) q.2.2 := by
  refine rate_congr_bij (fun q : Zr × List Zr × β => (q.1 :: q.2.1, q.2.2)) ?_ ?_ ?_ (fun q => P q.1 q.2)
  · rintro ⟨x, rs, b⟩ h
    simp only [Finset.mem_product, nonzeroCh, Finset.mem_erase, mem_challengeLists] at h ⊢
    exact ⟨⟨by simp [h.2.1.1], by simp [h.2.1.2, Ne.symm h.1.1]⟩, h.2.2⟩
  · rintro ⟨x, rs, b⟩ _ ⟨y, ss, c⟩ _ h
    simp only [Prod.mk.injEq, List.cons.injEq] at h
    rw [h.1.1, h.1.2, h.2]
  · rintro ⟨l, b⟩ h
    simp only [Finset.mem_product, mem_challengeLists] at h
    obtain ⟨x, rs, rfl⟩ := List.exists_cons_of_length_eq_add_one h.1.1
    simp only [List.mem_cons, not_or] at h
    exact ⟨(x, rs, b), by
      simp only [Finset.mem_product, nonzeroCh, Finset.mem_erase, Finset.mem_univ, mem_challengeLists]
      exact ⟨⟨Ne.symm h.1.2.1, trivial⟩, ⟨by simpa using h.1.1, h.1.2.2⟩, h.2⟩, rfl⟩

theorem four_of_card {α : Type} {S : Finset α} (h : 3 < #S) :
    ∃ x₁ ∈ S, ∃ x₂ ∈ S, ∃ x₃ ∈ S, ∃ x₄ ∈ S, [x₁, x₂, x₃, x₄].Nodup := by
  obtain ⟨T, hT, hc⟩ := Finset.exists_subset_card_eq (show 4 ≤ #S by omega)
  have hl : T.toList.length = 4 := by rw [Finset.length_toList, hc]
  have hn := T.nodup_toList
  have hm : ∀ y ∈ T.toList, y ∈ S := fun y hy => hT (Finset.mem_toList.1 hy)
  match hTl : T.toList, hl with
  | [y₁, y₂, y₃, y₄], _ =>
    rw [hTl] at hn hm
    exact ⟨y₁, hm _ (by simp), y₂, hm _ (by simp), y₃, hm _ (by simp), y₄, hm _ (by simp), hn⟩

namespace BP

/-- Forking the rounds of the reduction. -/
theorem exists_itree {A β : Type} (T : Finset β) (δ : ℚ) (hδ : 0 ≤ δ) : ∀ (k : ℕ) (p : IrProver A)
    (P : List Zr → β → Prop), 3 * k / ((order : ℚ) - 1) + δ < rate (challengeLists k ×ˢ T) (fun q => P q.1 q.2) →
    ∃ t : ITree A, t.WellFormed k ∧ t.Of p ∧ ∀ q ∈ t.paths, δ < rate T (P (q.1.map Prod.fst))
  | 0, p, P, h => by
    refine ⟨.leaf (p.u []), trivial, ?_, ?_⟩
    · intro q hq
      rw [ITree.paths, List.mem_singleton] at hq
      subst hq
      rfl
    · intro q hq
      rw [ITree.paths, List.mem_singleton] at hq
      subst hq
      rw [rate_prod] at h
      simpa [challengeLists] using h
  | k + 1, p, P, h => by
    classical
    rw [rate_challengeLists_succ] at h
    have hpos := order_pred_pos
    have hgood := fork nonzeroCh (challengeLists k ×ˢ T) (fun x q => P (x :: q.1) q.2) 3 (3 * k / ((order : ℚ) - 1) + δ)
      (by positivity) nonzeroCh_pos (by
        refine lt_of_le_of_lt (le_of_eq ?_) h
        rw [card_nonzeroCh, order_pred_cast]
        push_cast
        ring)
    obtain ⟨x₁, h₁, x₂, h₂, x₃, h₃, x₄, h₄, hn⟩ := four_of_card hgood
    have step : ∀ x ∈ nonzeroCh.filter fun x => 3 * k / ((order : ℚ) - 1) + δ
        < rate (challengeLists k ×ˢ T) fun q => P (x :: q.1) q.2,
        x ≠ 0 ∧ ∃ t : ITree A, t.WellFormed k ∧ t.Of ⟨fun l => p.pair (x :: l), fun l => p.u (x :: l)⟩ ∧
          ∀ q ∈ t.paths, δ < rate T (P (x :: q.1.map Prod.fst)) := by
      intro x hx
      rw [Finset.mem_filter, nonzeroCh, Finset.mem_erase] at hx
      exact ⟨hx.1.1, exists_itree T δ hδ k ⟨fun l => p.pair (x :: l), fun l => p.u (x :: l)⟩ (fun l => P (x :: l)) hx.2⟩
    obtain ⟨z₁, t₁, w₁, o₁, a₁⟩ := step x₁ h₁
    obtain ⟨z₂, t₂, w₂, o₂, a₂⟩ := step x₂ h₂
    obtain ⟨z₃, t₃, w₃, o₃, a₃⟩ := step x₃ h₃
    obtain ⟨z₄, t₄, w₄, o₄, a₄⟩ := step x₄ h₄
    refine ⟨.node (p.pair []).1 (p.pair []).2 x₁ x₂ x₃ x₄ t₁ t₂ t₃ t₄, ⟨hn, z₁, z₂, z₃, z₄, w₁, w₂, w₃, w₄⟩, ?_, ?_⟩
    · have one : ∀ (x : Zr) (t : ITree A), t.Of ⟨fun l => p.pair (x :: l), fun l => p.u (x :: l)⟩ → ∀ q ∈ t.paths,
          ((x, (p.pair []).1, (p.pair []).2) :: q.1, q.2)
            = (IrProver.rounds p.pair (((x, (p.pair []).1, (p.pair []).2) :: q.1).map Prod.fst),
              p.u (((x, (p.pair []).1, (p.pair []).2) :: q.1).map Prod.fst)) := by
        intro x t ho q hq
        have := ho q hq
        rw [Prod.ext_iff] at this
        exact Prod.ext (congrArg (List.cons _) this.1) this.2
      intro q hq
      simp only [ITree.paths, List.mem_append, List.mem_map] at hq
      rcases hq with ((⟨r, hr, rfl⟩ | ⟨r, hr, rfl⟩) | ⟨r, hr, rfl⟩) | ⟨r, hr, rfl⟩
      · exact one _ _ o₁ r hr
      · exact one _ _ o₂ r hr
      · exact one _ _ o₃ r hr
      · exact one _ _ o₄ r hr
    · intro q hq
      simp only [ITree.paths, List.mem_append, List.mem_map] at hq
      rcases hq with ((⟨r, hr, rfl⟩ | ⟨r, hr, rfl⟩) | ⟨r, hr, rfl⟩) | ⟨r, hr, rfl⟩
      · exact a₁ r hr
      · exact a₂ r hr
      · exact a₃ r hr
      · exact a₄ r hr

/-- Forking the rounds of the inner-product argument. -/
theorem exists_tree_rate {G : Type} (k : ℕ) (p : Prover G) (acc : List (Zr × G × G) × Zr × Zr → Prop)
    (hlen : ∀ q, acc q → q.1.length = k)
    (h : 6 * k / ((order : ℚ) - 1) < rate (challengeLists k) fun xs => acc (p.answer xs)) :
    ∃ t : TTree G, t.WellFormed k ∧ t.Of p ∧ ∀ q ∈ t.paths, acc q := by
  classical
  refine exists_tree k p acc hlen ?_
  have hpos := order_pred_pos
  rw [rate, card_challengeLists, Nat.cast_pow, order_pred_cast, lt_div_iff₀ (by positivity)] at h
  have : ((6 * k * (order - 1) ^ (k - 1) : ℕ) : ℚ) = 6 * k / ((order : ℚ) - 1) * ((order : ℚ) - 1) ^ k := by
    rw [Nat.cast_mul, Nat.cast_mul, Nat.cast_pow, order_pred_cast]
    rcases k with _ | k
    · simp
    · rw [Nat.add_sub_cancel, pow_succ]
      field_simp
      push_cast
      ring
  rw [← this] at h
  exact_mod_cast h

theorem inj_of_card {α : Type} {S : Finset α} {m : ℕ} (h : m < #S) :
    ∃ f : Fin (m + 1) → α, Function.Injective f ∧ ∀ i, f i ∈ S := by
  have hle : Fintype.card (Fin (m + 1)) ≤ Fintype.card S := by simpa using h
  obtain ⟨e⟩ := Function.Embedding.nonempty_of_card_le hle
  exact ⟨fun i => (e i).1, fun i j hij => e.injective (Subtype.ext hij), fun i => (e i).2⟩

variable {A : Type} [AddCommGroup A] [Module Zr A]

/-- The transcript with the given inner-product part. -/
def RangeProver.withIpa (p : RangeProver A) (x : Zr) (rs : List Zr) (y0 y1 x0 z : Zr) (q : List (Zr × A × A) × Zr × Zr) :
    RangeTr A := { p.transcript ⟨x, rs, y0, y1, x0, z, []⟩ with ipa := q.1, a := q.2.1, b := q.2.2 }

/-- The answer is one of the prover, and accepted. -/
def ZAnswer.Good (p : RangeProver A) (g : RangeGens A) (k : ℕ) (V : A) (x : Zr) (rs : List Zr) (y0 y1 x0 : Zr)
    (m : ZAnswer A) : Prop :=
  m.tree.WellFormed (k + 6) ∧ p.last x rs y0 y1 x0 m.z = (m.τ, m.ρ, m.c) ∧ m.tree.Of (p.ipa x rs y0 y1 x0 m.z) ∧
    ∀ l ∈ m.tree.paths, (p.withIpa x rs y0 y1 x0 m.z l).Accepted g (2 ^ k) V

/-- The answers are those of the prover, and accepted. -/
def YAnswer.Good (p : RangeProver A) (g : RangeGens A) (k : ℕ) (V : A) (x : Zr) (rs : List Zr) (y0 y1 : Zr)
    (m : YAnswer A) : Prop :=
  m.x0 ≠ 0 ∧ p.C x rs y0 y1 m.x0 = (m.C1, m.C2) ∧ (∀ q q', q ≠ q' → (m.zs q).z ≠ (m.zs q').z) ∧
    ∀ q, (m.zs q).Good p g k V x rs y0 y1 m.x0

section
variable (p : RangeProver A) (g : RangeGens A) (k : ℕ) (V : A) (x : Zr) (rs : List Zr) (y0 : Zr)

theorem exists_zAnswer (y1 x0 z : Zr) (h : 6 * (k + 6 : ℕ) / ((order : ℚ) - 1) < rate (challengeLists (k + 6))
      fun xs => (p.transcript ⟨x, rs, y0, y1, x0, z, xs⟩).Accepted g (2 ^ k) V) :
    ∃ m : ZAnswer A, m.z = z ∧ m.Good p g k V x rs y0 y1 x0 := by
  obtain ⟨t, wf, hof, hacc⟩ := exists_tree_rate (k + 6) (p.ipa x rs y0 y1 x0 z)
    (fun q => (p.withIpa x rs y0 y1 x0 z q).Accepted g (2 ^ k) V)
    (fun q hq => acceptsWith_length _ _ _ (k + 6) q.1 _ _ _ (by simp [pow_add]) hq.2.1) h
  exact ⟨⟨z, (p.last x rs y0 y1 x0 z).1, (p.last x rs y0 y1 x0 z).2.1, (p.last x rs y0 y1 x0 z).2.2, t⟩, rfl, wf, rfl, hof,
    hacc⟩

theorem exists_yAnswer (y1 x0 : Zr) (hx0 : x0 ≠ 0) (h : 2 / (order : ℚ) + 6 * (k + 6 : ℕ) / ((order : ℚ) - 1)
      < rate (univ ×ˢ challengeLists (k + 6))
        fun q => (p.transcript ⟨x, rs, y0, y1, x0, q.1, q.2⟩).Accepted g (2 ^ k) V) :
    ∃ m : YAnswer A, m.x0 = x0 ∧ m.Good p g k V x rs y0 y1 := by
  classical
  have hpos := order_pred_pos
  have hgood := fork univ (challengeLists (k + 6))
    (fun z xs => (p.transcript ⟨x, rs, y0, y1, x0, z, xs⟩).Accepted g (2 ^ k) V) 2
    (6 * (k + 6 : ℕ) / ((order : ℚ) - 1)) (by positivity) univ_pos (by
      rw [Finset.card_univ, ZMod.card, Nat.cast_ofNat]; exact h)
  obtain ⟨f, hf, hm⟩ := inj_of_card hgood
  choose zs hz hg using fun i => exists_zAnswer p g k V x rs y0 y1 x0 (f i) (Finset.mem_filter.1 (hm i)).2
  refine ⟨⟨x0, (p.C x rs y0 y1 x0).1, (p.C x rs y0 y1 x0).2, zs⟩, rfl, hx0, rfl, fun q q' hq h => ?_, hg⟩
  rw [hz, hz] at h
  exact hq (hf h)

theorem exists_y1 (y1 : Zr) (h : 1 / ((order : ℚ) - 1) + (2 / (order : ℚ) + 6 * (k + 6 : ℕ) / ((order : ℚ) - 1))
      < rate (nonzeroCh ×ˢ (univ ×ˢ challengeLists (k + 6)))
        fun q => (p.transcript ⟨x, rs, y0, y1, q.1, q.2.1, q.2.2⟩).Accepted g (2 ^ k) V) :
    ∃ m : Fin 2 → YAnswer A, (m 0).x0 ≠ (m 1).x0 ∧ ∀ e, (m e).Good p g k V x rs y0 y1 := by
  classical
  have hpos := order_pred_pos
  have hgood := fork nonzeroCh (univ ×ˢ challengeLists (k + 6))
    (fun x0 q => (p.transcript ⟨x, rs, y0, y1, x0, q.1, q.2⟩).Accepted g (2 ^ k) V) 1
    (2 / (order : ℚ) + 6 * (k + 6 : ℕ) / ((order : ℚ) - 1)) (by positivity) nonzeroCh_pos (by
      rw [card_nonzeroCh, order_pred_cast, Nat.cast_one]; exact h)
  obtain ⟨f, hf, hm⟩ := inj_of_card hgood
  choose m hx0 hg using fun i => exists_yAnswer p g k V x rs y0 y1 (f i)
    (Finset.mem_erase.1 (Finset.mem_filter.1 (hm i)).1).1 (Finset.mem_filter.1 (hm i)).2
  refine ⟨m, fun h => ?_, hg⟩
  rw [hx0, hx0] at h
  exact absurd (hf h) (by decide)

theorem exists_y0 (h : 2 / (order : ℚ) + (1 / ((order : ℚ) - 1) + (2 / (order : ℚ) + 6 * (k + 6 : ℕ) / ((order : ℚ) - 1)))
      < rate (univ ×ˢ (nonzeroCh ×ˢ (univ ×ˢ challengeLists (k + 6))))
        fun q => (p.transcript ⟨x, rs, y0, q.1, q.2.1, q.2.2.1, q.2.2.2⟩).Accepted g (2 ^ k) V) :
    ∃ (S1 : List Zr) (m : Zr → Fin 2 → YAnswer A), S1.Nodup ∧ 3 ≤ S1.length ∧
      ∀ y1 ∈ S1, (m y1 0).x0 ≠ (m y1 1).x0 ∧ ∀ e, (m y1 e).Good p g k V x rs y0 y1 := by
  classical
  have hpos := order_pred_pos
  have hgood := fork univ (nonzeroCh ×ˢ (univ ×ˢ challengeLists (k + 6)))
    (fun y1 q => (p.transcript ⟨x, rs, y0, y1, q.1, q.2.1, q.2.2⟩).Accepted g (2 ^ k) V) 2
    (1 / ((order : ℚ) - 1) + (2 / (order : ℚ) + 6 * (k + 6 : ℕ) / ((order : ℚ) - 1))) (by positivity) univ_pos (by
      rw [Finset.card_univ, ZMod.card, Nat.cast_ofNat]; exact h)
  set S : Finset Zr := {y1 ∈ univ | _ < rate _ _} with hSdef
  have key : ∀ y1, ∃ m : Fin 2 → YAnswer A, y1 ∈ S.toList → (m 0).x0 ≠ (m 1).x0 ∧
      ∀ e, (m e).Good p g k V x rs y0 y1 := fun y1 => by
    by_cases hy : y1 ∈ S.toList
    · obtain ⟨m, hm⟩ := exists_y1 p g k V x rs y0 y1 (Finset.mem_filter.1 (Finset.mem_toList.1 hy)).2
      exact ⟨m, fun _ => hm⟩
    · exact ⟨fun _ => ⟨0, p.W, p.W, fun _ => ⟨0, 0, 0, 0, .leaf 0 0⟩⟩, fun h => absurd h hy⟩
  choose m hm using key
  exact ⟨S.toList, m, Finset.nodup_toList _, by rw [Finset.length_toList]; exact hgood, hm⟩

end

/-- What follows the reduction is that of the prover, and accepted. -/
def RBranch.Good (p : RangeProver A) (g : RangeGens A) (k : ℕ) (V : A) (x : Zr) (rs : List Zr) (b : RBranch A) : Prop :=
  b.R = p.R x rs ∧ b.S0.Nodup ∧ 2 ^ k * 64 ≤ b.S0.length ∧ 0 ∉ b.S0 ∧
    ∀ y0 ∈ b.S0, (b.S1 y0).Nodup ∧ 3 ≤ (b.S1 y0).length ∧ ∀ y1 ∈ b.S1 y0, (b.ans y0 y1 0).x0 ≠ (b.ans y0 y1 1).x0 ∧
      ∀ e, (b.ans y0 y1 e).Good p g k V x rs y0 y1

/-- The error of what follows the reduction. -/
def branchError (k : ℕ) : ℚ := ((2 ^ k * 64 - 1 : ℕ) : ℚ) / ((order : ℚ) - 1)
  + (2 / (order : ℚ) + (1 / ((order : ℚ) - 1) + (2 / (order : ℚ) + 6 * (k + 6 : ℕ) / ((order : ℚ) - 1))))

theorem branchError_nonneg (k : ℕ) : 0 ≤ branchError k := by
  have hpos := order_pred_pos
  rw [branchError]
  positivity

theorem exists_branch (p : RangeProver A) (g : RangeGens A) (k : ℕ) (V : A) (x : Zr) (rs : List Zr)
    (h : branchError k < rate (nonzeroCh ×ˢ (univ ×ˢ (nonzeroCh ×ˢ (univ ×ˢ challengeLists (k + 6)))))
      fun q => (p.transcript ⟨x, rs, q.1, q.2.1, q.2.2.1, q.2.2.2.1, q.2.2.2.2⟩).Accepted g (2 ^ k) V) :
    ∃ b : RBranch A, b.Good p g k V x rs := by
  classical
  have hpos := order_pred_pos
  have hgood := fork nonzeroCh (univ ×ˢ (nonzeroCh ×ˢ (univ ×ˢ challengeLists (k + 6))))
    (fun y0 q => (p.transcript ⟨x, rs, y0, q.1, q.2.1, q.2.2.1, q.2.2.2⟩).Accepted g (2 ^ k) V) (2 ^ k * 64 - 1)
    (2 / (order : ℚ) + (1 / ((order : ℚ) - 1) + (2 / (order : ℚ) + 6 * (k + 6 : ℕ) / ((order : ℚ) - 1)))) (by positivity) nonzeroCh_pos (by rw [card_nonzeroCh, order_pred_cast]; exact h)
  set S : Finset Zr := {y0 ∈ nonzeroCh | _ < rate _ _} with hSdef
  have key : ∀ y0, ∃ (S1 : List Zr) (m : Zr → Fin 2 → YAnswer A), y0 ∈ S.toList → S1.Nodup ∧ 3 ≤ S1.length ∧
      ∀ y1 ∈ S1, (m y1 0).x0 ≠ (m y1 1).x0 ∧ ∀ e, (m y1 e).Good p g k V x rs y0 y1 := fun y0 => by
    by_cases hy : y0 ∈ S.toList
    · obtain ⟨S1, m, hm⟩ := exists_y0 p g k V x rs y0 (Finset.mem_filter.1 (Finset.mem_toList.1 hy)).2
      exact ⟨S1, m, fun _ => hm⟩
    · exact ⟨[], fun _ _ => ⟨0, p.W, p.W, fun _ => ⟨0, 0, 0, 0, .leaf 0 0⟩⟩, fun h => absurd h hy⟩
  choose S1 m hm using key
  refine ⟨⟨p.R x rs, S.toList, S1, m⟩, rfl, Finset.nodup_toList _, ?_, fun h0 => ?_, hm⟩
  · rw [Finset.length_toList]
    omega
  · exact (Finset.mem_erase.1 (Finset.mem_filter.1 (Finset.mem_toList.1 h0)).1).1 rfl

theorem exists_xBranch (p : RangeProver A) (g : RangeGens A) (k : ℕ) (V : A) (x : Zr)
    (h : 3 * k / ((order : ℚ) - 1) + branchError k
      < rate (challengeLists k ×ˢ (nonzeroCh ×ˢ (univ ×ˢ (nonzeroCh ×ˢ (univ ×ˢ challengeLists (k + 6))))))
      fun q => (p.transcript ⟨x, q.1, q.2.1, q.2.2.1, q.2.2.2.1, q.2.2.2.2.1, q.2.2.2.2.2⟩).Accepted g (2 ^ k) V) :
    ∃ b : XBranch A, b.x = x ∧ b.γ = p.γ x ∧ b.tree.WellFormed k ∧ b.tree.Of (p.red x) ∧
      ∀ s ∈ b.tree.paths, (b.next (s.1.map Prod.fst)).Good p g k V x (s.1.map Prod.fst) := by
  obtain ⟨t, wf, hof, hr⟩ := exists_itree (nonzeroCh ×ˢ (univ ×ˢ (nonzeroCh ×ˢ (univ ×ˢ challengeLists (k + 6))))) (branchError k) (branchError_nonneg k) k (p.red x)
    (fun rs q => (p.transcript ⟨x, rs, q.1, q.2.1, q.2.2.1, q.2.2.2.1, q.2.2.2.2⟩).Accepted g (2 ^ k) V) h
  have key : ∀ rs, ∃ b : RBranch A, (∃ s ∈ t.paths, rs = s.1.map Prod.fst) → b.Good p g k V x rs := fun rs => by
    by_cases hrs : ∃ s ∈ t.paths, rs = s.1.map Prod.fst
    · obtain ⟨s, hs, rfl⟩ := hrs
      obtain ⟨b, hb⟩ := exists_branch p g k V x _ (hr s hs)
      exact ⟨b, fun _ => hb⟩
    · exact ⟨⟨p.W, [], fun _ => [], fun _ _ _ => ⟨0, p.W, p.W, fun _ => ⟨0, 0, 0, 0, .leaf 0 0⟩⟩⟩, fun h => absurd h hrs⟩
  choose nx hnx using key
  exact ⟨⟨x, p.γ x, t, nx⟩, rfl, rfl, wf, hof, fun s hs => hnx _ ⟨s, hs, rfl⟩⟩

/-- The challenges as a product. -/
def rangeChs (k : ℕ) : Finset (Zr × List Zr × Zr × Zr × Zr × Zr × List Zr) :=
  univ ×ˢ (challengeLists k ×ˢ (nonzeroCh ×ˢ (univ ×ˢ (nonzeroCh ×ˢ (univ ×ˢ challengeLists (k + 6))))))

/-- The challenges as a structure. -/
def toRangeCh (q : Zr × List Zr × Zr × Zr × Zr × Zr × List Zr) : RangeCh :=
  ⟨q.1, q.2.1, q.2.2.1, q.2.2.2.1, q.2.2.2.2.1, q.2.2.2.2.2.1, q.2.2.2.2.2.2⟩

theorem rangeError_eq (k : ℕ) : rangeError k = 1 / (order : ℚ) + (3 * k / ((order : ℚ) - 1) + branchError k) := by
  have h1 : ((2 ^ k * 64 - 1 : ℕ) : ℚ) = 2 ^ k * 64 - 1 := by
    rw [Nat.cast_sub (by have : 0 < 2 ^ k := by positivity
                         omega)]
    push_cast
    ring
  rw [rangeError, branchError, h1]
  push_cast
  ring

theorem RangeProver.tree_of_rate (p : RangeProver A) (g : RangeGens A) (k : ℕ) (V : A)
    (h : rangeError k < rate (rangeChs k) fun q => (p.transcript (toRangeCh q)).Accepted g (2 ^ k) V) :
    ∃ t : RTree A, t.WellFormed k ∧ t.Of p ∧ t.Accepted g (2 ^ k) V := by
  classical
  have hpos := order_pred_pos
  have hb := branchError_nonneg k
  rw [rangeError_eq] at h
  have hgood := fork univ
    (challengeLists k ×ˢ (nonzeroCh ×ˢ (univ ×ˢ (nonzeroCh ×ˢ (univ ×ˢ challengeLists (k + 6))))))
    (fun x q => (p.transcript ⟨x, q.1, q.2.1, q.2.2.1, q.2.2.2.1, q.2.2.2.2.1, q.2.2.2.2.2⟩).Accepted g (2 ^ k) V) 1
    (3 * k / ((order : ℚ) - 1) + branchError k) (by positivity) univ_pos
    (by rw [Finset.card_univ, ZMod.card, Nat.cast_one]; exact h)
  obtain ⟨f, hf, hm⟩ := inj_of_card hgood
  choose b hx hγ hwf hof hgd using fun j => exists_xBranch p g k V (f j) (Finset.mem_filter.1 (hm j)).2
  have hall : RTree.Of ⟨p.W, p.Q, b⟩ p ∧ RTree.Accepted g (2 ^ k) V ⟨p.W, p.Q, b⟩ := by
    have main : ∀ j, ∀ s ∈ (b j).tree.paths, ∀ y0 ∈ ((b j).next (s.1.map Prod.fst)).S0,
        ∀ y1 ∈ ((b j).next (s.1.map Prod.fst)).S1 y0, ∀ e q,
        ∀ l ∈ ((((b j).next (s.1.map Prod.fst)).ans y0 y1 e).zs q).tree.paths,
        let m := ((b j).next (s.1.map Prod.fst)).ans y0 y1 e
        let tr : RangeTr A := ⟨p.W, p.Q, (b j).x, (b j).γ, s.1, s.2, ((b j).next (s.1.map Prod.fst)).R, y0, y1,
          m.x0, m.C1, m.C2, (m.zs q).z, (m.zs q).τ, (m.zs q).ρ, (m.zs q).c, l.1, l.2.1, l.2.2⟩
        p.transcript ⟨(b j).x, s.1.map Prod.fst, y0, y1, m.x0, (m.zs q).z, l.1.map Prod.fst⟩ = tr ∧
          tr.Accepted g (2 ^ k) V := by
      intro j s hs y0 h0 y1 h1 e q l hl m tr
      obtain ⟨gR, -, -, -, gy⟩ := hgd j s hs
      obtain ⟨-, gC, -, gz⟩ := ((gy y0 h0).2.2 y1 h1).2 e
      obtain ⟨-, gl, go, ga⟩ := gz q
      have e1 : s = _ := hof j s hs
      have e2 : _ = l := go l hl
      have htr : p.withIpa (b j).x (s.1.map Prod.fst) y0 y1 m.x0 (m.zs q).z l = tr := by
        rw [hx]
        simp only [RangeProver.withIpa, RangeProver.transcript, tr, m, hx, hγ, gR]
        rw [gC, gl]
        have e11 := congrArg Prod.fst e1
        have e12 := congrArg Prod.snd e1
        dsimp only at e11 e12
        rw [← e11, ← e12]
      refine ⟨?_, ?_⟩
      · rw [← htr]
        have : p.transcript ⟨(b j).x, s.1.map Prod.fst, y0, y1, m.x0, (m.zs q).z, l.1.map Prod.fst⟩
            = p.withIpa (b j).x (s.1.map Prod.fst) y0 y1 m.x0 (m.zs q).z
              ((p.ipa (b j).x (s.1.map Prod.fst) y0 y1 m.x0 (m.zs q).z).answer (l.1.map Prod.fst)) := rfl
        rw [this]
        congr 1
        rw [hx]
        exact e2
      · rw [← htr, hx]
        exact ga l hl
    exact ⟨fun j s hs y0 h0 y1 h1 e q l hl => (main j s hs y0 h0 y1 h1 e q l hl).1,
      fun j s hs y0 h0 y1 h1 e q l hl => (main j s hs y0 h0 y1 h1 e q l hl).2⟩
  refine ⟨⟨p.W, p.Q, b⟩, ⟨?_, fun j => ⟨hwf j, fun s hs => ?_⟩⟩, hall.1, hall.2⟩
  · intro h
    have h' : (b 0).x = (b 1).x := h
    rw [hx, hx] at h'
    exact absurd (hf h') (by decide)
  · obtain ⟨-, g1, g2, g3, gy⟩ := hgd j s hs
    refine ⟨g1, g2, g3, fun y0 h0 => ⟨(gy y0 h0).1, (gy y0 h0).2.1, fun y1 h1 => ?_⟩⟩
    obtain ⟨q1, q2⟩ := (gy y0 h0).2.2 y1 h1
    exact ⟨q1, fun e => ⟨(q2 e).1, (q2 e).2.2.1, fun q => ((q2 e).2.2.2 q).1⟩⟩

theorem card_rangeChs (k : ℕ) : (#(rangeChs k) : ℚ) = rangeTotal k := by
  simp only [rangeChs, Finset.card_product, card_challengeLists, card_nonzeroCh, Finset.card_univ, ZMod.card]
  simp only [Nat.cast_mul, Nat.cast_pow, order_pred_cast]
  rw [rangeTotal]
  ring

theorem RangeProver.wins_ncard (p : RangeProver A) (g : RangeGens A) (k : ℕ) (V : A) :
    ((p.wins g k V).ncard : ℚ) / rangeTotal k
      = rate (rangeChs k) fun q => (p.transcript (toRangeCh q)).Accepted g (2 ^ k) V := by
  classical
  rw [← card_rangeChs, rate]
  congr 2
  have hinj : Function.Injective toRangeCh := by
    rintro ⟨a1, a2, a3, a4, a5, a6, a7⟩ ⟨b1, b2, b3, b4, b5, b6, b7⟩ h
    simp only [toRangeCh, RangeCh.mk.injEq] at h
    obtain ⟨rfl, rfl, rfl, rfl, rfl, rfl, rfl⟩ := h
    rfl
  rw [← Set.ncard_coe_finset, ← Set.ncard_image_of_injective _ hinj]
  congr 1
  ext c
  simp only [RangeProver.wins, Set.mem_ofPred_eq, Set.mem_image, Finset.coe_filter]
  constructor
  · rintro ⟨⟨v1, v2, v3, v4, v5, v6⟩, hacc⟩
    refine ⟨(c.x, c.rs, c.y0, c.y1, c.x0, c.z, c.xs), ⟨?_, hacc⟩, rfl⟩
    simp only [rangeChs, Finset.mem_product, nonzeroCh, Finset.mem_erase, Finset.mem_univ, mem_challengeLists]
    tauto
  · rintro ⟨q, ⟨hq, hacc⟩, rfl⟩
    refine ⟨?_, hacc⟩
    simp only [rangeChs, Finset.mem_product, nonzeroCh, Finset.mem_erase, Finset.mem_univ, mem_challengeLists] at hq
    simp only [RangeCh.Valid, toRangeCh]
    tauto

theorem mem_rangeChs (k : ℕ) (q : Zr × List Zr × Zr × Zr × Zr × Zr × List Zr) :
    q ∈ rangeChs k ↔ (toRangeCh q).Valid k := by
  simp only [rangeChs, Finset.mem_product, nonzeroCh, Finset.mem_erase, Finset.mem_univ, mem_challengeLists, RangeCh.Valid,
    toRangeCh]
  tauto

theorem rangeChs_nonempty (k : ℕ) : 0 < #(rangeChs k) := by
  have h := card_rangeChs k
  have hpos := order_pred_pos
  have : 0 < rangeTotal k := by
    rw [rangeTotal]
    have : (0 : ℚ) < order := by linarith
    positivity
  rw [← h] at this
  exact_mod_cast this

theorem rate_eq_one {α : Type} (S : Finset α) (P : α → Prop) (hS : 0 < #S) (h : ∀ a ∈ S, P a) : rate S P = 1 := by
  classical
  rw [rate, Finset.filter_true_of_mem h, div_self]
  exact_mod_cast hS.ne'

theorem IrProver.tree_of_wins (p : IrProver A) (k : ℕ) (V : A) (g : List A)
    (hw : 3 * k / ((order : ℚ) - 1) < ((p.wins k V g).ncard : ℚ) / ((order : ℚ) - 1) ^ k) :
    ∃ t : ITree A, t.WellFormed k ∧ t.Of p ∧ ∀ q ∈ t.paths, irAccepts q.1 V g q.2 := by
  classical
  have hr : ((p.wins k V g).ncard : ℚ) / ((order : ℚ) - 1) ^ k
      = rate (challengeLists k ×ˢ ({()} : Finset Unit))
        fun q => irAccepts (IrProver.rounds p.pair q.1) V g (p.u q.1) := by
    rw [rate_prod (P := fun rs _ => irAccepts (IrProver.rounds p.pair rs) V g (p.u rs))]
    rw [card_challengeLists, Nat.cast_pow, order_pred_cast]
    congr 1
    have : p.wins k V g = ({rs ∈ challengeLists k | irAccepts (IrProver.rounds p.pair rs) V g (p.u rs)} : Finset (List Zr)) := by
      ext rs
      rw [IrProver.wins, Set.mem_ofPred_eq, Finset.mem_coe, Finset.mem_filter, mem_challengeLists, and_assoc]
    rw [this, Set.ncard_coe_finset, Finset.card_filter, Nat.cast_sum]
    refine Finset.sum_congr rfl fun rs _ => ?_
    rw [rate]
    split <;> simp_all
  rw [hr] at hw
  obtain ⟨t, wf, hof, hacc⟩ := exists_itree {()} 0 le_rfl k p
    (fun rs _ => irAccepts (IrProver.rounds p.pair rs) V g (p.u rs)) (by rw [add_zero]; exact hw)
  refine ⟨t, wf, hof, fun q hq => ?_⟩
  obtain ⟨_, _, h⟩ := exists_of_rate (hacc q hq)
  have e : q = _ := hof q hq
  rw [e]
  exact h

/-- The honest prover of the reduction. -/
def honestPair : (k : ℕ) → (v : List Zr) → (g : List A) → List Zr → A × A
  | 0, _, _, _ => (0, 0)
  | k + 1, v, g, [] => (dot (v.drop (2 ^ k)) (g.take (2 ^ k)), dot (v.take (2 ^ k)) (g.drop (2 ^ k)))
  | k + 1, v, g, x :: rs => honestPair k (foldV 1 x (2 ^ k) v) (foldG 1 x⁻¹ (2 ^ k) g) rs

theorem honestPair_accepted : ∀ (k : ℕ) (v : List Zr) (g : List A) (rs : List Zr), v.length = 2 ^ k → g.length = 2 ^ k →
    rs.length = k → 0 ∉ rs →
    irAccepts (IrProver.rounds (honestPair k v g) rs) (dot v g) g (dot v (monomials rs))
  | 0, v, g, rs, hv, hg, hl, _ => by
    obtain ⟨v0, rfl⟩ := List.length_eq_one_iff.1 hv
    obtain ⟨g0, rfl⟩ := List.length_eq_one_iff.1 hg
    obtain rfl := List.length_eq_zero_iff.1 hl
    exact ⟨g0, rfl, by simp [monomials]⟩
  | k + 1, v, g, [], _, _, hl, _ => by simp at hl
  | k + 1, v, g, x :: rs, hv, hg, hl, h0 => by
    rw [pow_succ, mul_comm] at hv hg
    simp only [List.mem_cons, not_or] at h0
    have hx : x ≠ 0 := Ne.symm h0.1
    have ih := honestPair_accepted k (foldV 1 x (2 ^ k) v) (foldG 1 x⁻¹ (2 ^ k) g) rs (foldV_length hv) (foldG_length hg)
      (by simpa using hl) h0.2
    rw [monomials, dot_monomials (n := 2 ^ k) _ hv (by rw [monomials_length]; simp at hl; rw [hl])]
    rw [IrProver.rounds]
    show irAccepts ((x, (dot (v.drop (2 ^ k)) (g.take (2 ^ k)), dot (v.take (2 ^ k)) (g.drop (2 ^ k)))) ::
      IrProver.rounds (honestPair k (foldV 1 x (2 ^ k) v) (foldG 1 x⁻¹ (2 ^ k) g)) rs) _ _ _
    rw [irAccepts, halvesG_eq _ _ g _ hg]
    rw [dot_fold hv hg, mul_inv_cancel₀ hx] at ih
    have ed : dot v g = dot (v.take (2 ^ k)) (g.take (2 ^ k)) + dot (v.drop (2 ^ k)) (g.drop (2 ^ k)) :=
      dot_take_drop _ v g
    rw [ed]
    convert ih using 1
    module

/-- The honest prover of the range proof, without blinding except for that of the commitment. -/
def honestRangeProver (g : RangeGens A) (k : ℕ) (r : Zr) (v : ℕ → Zr) : RangeProver A where
  W := 0
  Q := ∑ i ∈ range (2 ^ k * 64), honestBits (2 ^ k) v i • g.Hs i
    + ∑ i ∈ range (2 ^ k * 64), honestComplement (2 ^ k) v i • g.Fs i
  γ _ := -r
  red _ := ⟨honestPair k ((List.range (2 ^ k)).map v) ((List.range (2 ^ k)).map g.Gs),
    fun rs => ∑ i ∈ range (2 ^ k), v i * bitMonomial rs.reverse i⟩
  R _ _ := 0
  C _ _ _ _ _ := (0, 0)
  last x rs y0 y1 _ _ := (0, 0,
    rangeConstant (2 ^ k) rs.reverse x (∑ i ∈ range (2 ^ k), v i * bitMonomial rs.reverse i) y0 y1)
  ipa x rs y0 y1 x0 _ := honestProver (x0 • g.U) (k + 6) ((List.range (2 ^ k * 64)).map (honestA (2 ^ k) v y1))
    ((List.range (2 ^ k * 64)).map (honestB (2 ^ k) v rs.reverse x y0 y1))
    ((List.range (2 ^ k * 64)).map g.Hs) ((List.range (2 ^ k * 64)).map fun i => y0⁻¹ ^ i • g.Fs i)

theorem rounds_fst {A : Type} : ∀ (pair : List Zr → A × A) (rs : List Zr), (IrProver.rounds pair rs).map Prod.fst = rs
  | _, [] => rfl
  | pair, r :: rs => by rw [IrProver.rounds, List.map_cons, rounds_fst]

theorem honestRangeProver_accepted (g : RangeGens A) (k : ℕ) (r : Zr) (v : ℕ → Zr)
    (hv : ∀ i < 2 ^ k, (v i).val < 2 ^ 63) (c : RangeCh) (hc : c.Valid k) :
    ((honestRangeProver g k r v).transcript c).Accepted g (2 ^ k) (r • g.F + ∑ i ∈ range (2 ^ k), v i • g.Gs i) := by
  classical
  obtain ⟨x, rs, y0, y1, x0, z, xs⟩ := c
  obtain ⟨v1, v2, hy0, hx0, v5, v6⟩ := hc
  dsimp only at v1 v2 hy0 hx0 v5 v6
  have i1 := honestPair_accepted k ((List.range (2 ^ k)).map v) ((List.range (2 ^ k)).map g.Gs) rs (by simp) (by simp) v1 v2
  have hu : dot ((List.range (2 ^ k)).map v) (monomials rs) = ∑ i ∈ range (2 ^ k), v i * bitMonomial rs.reverse i := by
    rw [dot_monomials_sum _ _ k (by simp) v1]
    refine Finset.sum_congr rfl fun i hi => ?_
    rw [getD_map_range _ _ (Finset.mem_range.1 hi)]
  have t1 := honestProver_accepted (x0 • g.U) (k + 6) ((List.range (2 ^ k * 64)).map (honestA (2 ^ k) v y1))
    ((List.range (2 ^ k * 64)).map (honestB (2 ^ k) v rs.reverse x y0 y1))
    ((List.range (2 ^ k * 64)).map g.Hs) ((List.range (2 ^ k * 64)).map fun i => y0⁻¹ ^ i • g.Fs i)
    (by simp [pow_add]) (by simp [pow_add]) (by simp [pow_add]) (by simp [pow_add]) xs v5 v6
  have hcst : rangeConstant (2 ^ k) rs.reverse x (∑ i ∈ range (2 ^ k), v i * bitMonomial rs.reverse i) y0 y1
      = ∑ i ∈ range (2 ^ k * 64), honestA (2 ^ k) v y1 i * honestB (2 ^ k) v rs.reverse x y0 y1 i := by
    symm
    refine (rangeEquation_iff_value (2 ^ k) (honestBits (2 ^ k) v) (honestComplement (2 ^ k) v) v (fun _ => 0) _ _ _ y0 y1
      (by simp)).2 ?_
    exact honest_equation _ _ hv _ _ _ _
  simp only [RangeTr.Accepted, RangeProver.transcript, rounds_fst]
  refine ⟨?_, ?_, ?_⟩
  · rw [dot_map_map_range, hu] at i1
    simp only [honestRangeProver]
    convert i1 using 1
    module
  · rw [dot_map_map_range, dot_map_map_range, dot_map_map_range] at t1
    simp only [honestRangeProver]
    rw [hcst, rangeStatement]
    simp only [smul_eq_mul] at t1
    have e1 : ∑ i ∈ range (2 ^ k * 64), honestA (2 ^ k) v y1 i • g.Hs i
        = ∑ i ∈ range (2 ^ k * 64), honestBits (2 ^ k) v i • g.Hs i + ∑ i ∈ range (2 ^ k * 63), y1 • g.Hs i := by
      simp only [honestA, add_smul, Finset.sum_add_distrib]
      rw [sum_ite_smul]
    have e2 : ∑ i ∈ range (2 ^ k * 64), honestB (2 ^ k) v rs.reverse x y0 y1 i • y0⁻¹ ^ i • g.Fs i
        = ∑ i ∈ range (2 ^ k * 64), honestComplement (2 ^ k) v i • g.Fs i + ∑ i ∈ range (2 ^ k * 63), y1 • g.Fs i
          + ∑ i ∈ range (2 ^ k * 64), (y1 ^ 2 * rangeWeight (2 ^ k) rs.reverse x i) • y0⁻¹ ^ i • g.Fs i := by
      rw [← sum_ite_smul, ← Finset.sum_add_distrib, ← Finset.sum_add_distrib]
      refine Finset.sum_congr rfl fun i _ => ?_
      have hp : y0 ^ i * y0⁻¹ ^ i = 1 := by rw [← mul_pow, mul_inv_cancel₀ hy0, one_pow]
      rw [honestB, add_smul, mul_smul, smul_smul (y0 ^ i), hp, one_smul, add_smul]
    rw [e1, e2] at t1
    convert t1 using 1
    module
  · simp only [honestRangeProver]
    simp

end BP
end PoL
