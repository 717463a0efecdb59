import Verif.Proofs.RewindRange
import Verif.Spec.LiabilityProvers
import Mathlib.Data.Fintype.BigOperators
import Mathlib.Algebra.BigOperators.Fin

/-!
# Helper lemmas for C85: provers of the aggregated sum argument and of the batch equality proof that are accepted often can
be rewound
-/

set_option linter.unusedSectionVars false

namespace PoL

open Finset

variable {G1 G2 GT : Type} [AddCommGroup G1] [Module Zr G1] [AddCommGroup G2] [Module Zr G2]
  [AddCommGroup GT] [Module Zr GT]

/-- A fraction of a set of challenges, as a rate. -/
theorem ncard_div_eq_rate {α β : Type} (W : Set β) (S : Finset α) (f : α → β) (hf : Function.Injective f) (P : α → Prop)
    (h : ∀ b, b ∈ W ↔ ∃ a ∈ S, P a ∧ f a = b) : (W.ncard : ℚ) / #S = rate S P := by
  classical
  rw [rate]
  congr 2
  rw [← Set.ncard_coe_finset, ← Set.ncard_image_of_injective _ hf]
  congr 1
  ext b
  rw [h b]
  simp only [Set.mem_image, Finset.coe_filter, Set.mem_ofPred_eq, and_assoc]

theorem challengeLists_pos (k : ℕ) : 0 < #(challengeLists k) := by
  rw [card_challengeLists]
  exact Nat.pow_pos (by decide +kernel)

theorem order_pos_cast : (0 : ℚ) < order := by
  have := order_pred_pos
  linarith

namespace Sum

open BP

theorem exists_answers (p : Prover G1) (k : ℕ) (x₀ : Zr) (b : List Zr) (F : G1) (Gs H : List G1) (U V : G1)
    (hGs : Gs.length = 2 ^ k)
    (h : 2 / (order : ℚ) + 6 * k / ((order : ℚ) - 1) < rate (univ ×ˢ challengeLists k) fun q : Zr × List Zr =>
      acceptsWith (x₀ • U) ((p.next q.1).2.answer q.2).1
        ((p.next q.1).1 • F + V + q.1 • p.W + dot b H + (x₀ * (p.c * q.1)) • U) Gs H ((p.next q.1).2.answer q.2).2.1
        ((p.next q.1).2.answer q.2).2.2) :
    ∃ a : Fin 3 → Answer G1, (∀ i j, i ≠ j → (a i).x ≠ (a j).x) ∧
      ∀ i, (a i).Of p ∧ (a i).tree.WellFormed k ∧ (a i).Accepted x₀ p.c b F Gs H U V p.W := by
  classical
  have hpos := order_pred_pos
  have hgood := fork univ (challengeLists k) (fun x xs => acceptsWith (x₀ • U) ((p.next x).2.answer xs).1
        ((p.next x).1 • F + V + x • p.W + dot b H + (x₀ * (p.c * x)) • U) Gs H ((p.next x).2.answer xs).2.1
        ((p.next x).2.answer xs).2.2) 2
    (6 * k / ((order : ℚ) - 1)) (by positivity) univ_pos (by
      rw [Finset.card_univ, ZMod.card, Nat.cast_ofNat]; exact h)
  obtain ⟨f, hf, hm⟩ := inj_of_card hgood
  have step : ∀ i, ∃ a : Answer G1, a.x = f i ∧ a.Of p ∧ a.tree.WellFormed k ∧ a.Accepted x₀ p.c b F Gs H U V p.W := by
    intro i
    obtain ⟨t, wf, hof, hacc⟩ := exists_tree_rate k (p.next (f i)).2 (fun q => acceptsWith (x₀ • U) q.1
        ((p.next (f i)).1 • F + V + f i • p.W + dot b H + (x₀ * (p.c * f i)) • U) Gs H q.2.1 q.2.2)
      (fun q hq => acceptsWith_length _ _ _ k q.1 _ _ _ hGs hq) (Finset.mem_filter.1 (hm i)).2
    exact ⟨⟨f i, (p.next (f i)).1, t⟩, rfl, ⟨rfl, hof⟩, wf, hacc⟩
  choose a hx ha using step
  exact ⟨a, fun i j hij h => hij (hf (by rw [← hx, ← hx, h])), ha⟩

theorem AggProver.wins_ncard (p : AggProver G1) (k m : ℕ) (x₀ : Zr) (w : List Zr) (F : G1) (Gs H : List G1) (U : G1)
    (V : ℕ → G1) :
    ((p.wins k m x₀ w F Gs H U V).ncard : ℚ) / aggTotal k = rate (univ ×ˢ (univ ×ˢ challengeLists k)) fun q : Zr × Zr × List Zr =>
      acceptsWith (x₀ • U) (((p q.1).next q.2.1).2.answer q.2.2).1
        (((p q.1).next q.2.1).1 • F + (∑ i ∈ range m, q.1 ^ i • V i) + q.2.1 • (p q.1).W + dot w H
          + (x₀ * ((p q.1).c * q.2.1)) • U) Gs H (((p q.1).next q.2.1).2.answer q.2.2).2.1
        (((p q.1).next q.2.1).2.answer q.2.2).2.2 := by
  have hc : (#((univ : Finset Zr) ×ˢ ((univ : Finset Zr) ×ˢ challengeLists k)) : ℚ) = aggTotal k := by
    simp only [Finset.card_product, card_challengeLists, Finset.card_univ, ZMod.card]
    simp only [Nat.cast_mul, Nat.cast_pow, order_pred_cast]
    rw [aggTotal]
    ring
  rw [← hc]
  refine ncard_div_eq_rate _ _ id Function.injective_id _ fun b => ?_
  simp only [AggProver.wins, Prover.wins, BP.Prover.wins, Set.mem_ofPred_eq, Finset.mem_product, Finset.mem_univ,
    mem_challengeLists, true_and, id, and_assoc]
  constructor
  · rintro ⟨h1, h2, h3⟩
    exact ⟨b, h1, h2, h3, rfl⟩
  · rintro ⟨b, h1, h2, h3, rfl⟩
    exact ⟨h1, h2, h3⟩

theorem AggProver.branches_of_wins (p : AggProver G1) (k m : ℕ) (x₀ : Zr) (w : List Zr) (F : G1) (Gs H : List G1) (U : G1)
    (V : ℕ → G1) (hGs : Gs.length = 2 ^ k)
    (h : aggError k m < ((p.wins k m x₀ w F Gs H U V).ncard : ℚ) / aggTotal k) :
    ∃ b : Fin m → AggBranch G1, (∀ i j, i ≠ j → (b i).τ ≠ (b j).τ) ∧
      ∀ j, (b j).Of p ∧ (b j).Accepted k m x₀ w F Gs H U V := by
  classical
  rcases m with _ | m
  · exact ⟨fun i => i.elim0, fun i => i.elim0, fun i => i.elim0⟩
  rw [AggProver.wins_ncard] at h
  have hpos := order_pred_pos
  have hpos' := order_pos_cast
  have hgood := fork univ (univ ×ˢ challengeLists k) (fun (τ : Zr) (q : Zr × List Zr) =>
      acceptsWith (x₀ • U) (((p τ).next q.1).2.answer q.2).1
        (((p τ).next q.1).1 • F + (∑ i ∈ range (m + 1), τ ^ i • V i) + q.1 • (p τ).W + dot w H
          + (x₀ * ((p τ).c * q.1)) • U) Gs H (((p τ).next q.1).2.answer q.2).2.1
        (((p τ).next q.1).2.answer q.2).2.2) m (2 / (order : ℚ) + 6 * k / ((order : ℚ) - 1)) (by positivity) univ_pos (by
      rw [Finset.card_univ, ZMod.card]
      refine lt_of_le_of_lt (le_of_eq ?_) h
      rw [aggError]
      push_cast
      ring)
  obtain ⟨f, hf, hm⟩ := inj_of_card hgood
  choose a hx ha using fun i => exists_answers (p (f i)) k x₀ w F Gs H U (∑ l ∈ range (m + 1), f i ^ l • V l) hGs
    (Finset.mem_filter.1 (hm i)).2
  exact ⟨fun i => ⟨f i, (p (f i)).c, (p (f i)).W, a i⟩, fun i j hij h => hij (hf h), fun j =>
    ⟨⟨rfl, rfl, fun i => (ha j i).1⟩, hx j, fun i => (ha j i).2⟩⟩

end Sum

namespace Poe

open BP

/-- An affine function with a non-zero coefficient has few zeros. -/
theorem affine_zeros {ι : Type} [Fintype ι] [DecidableEq ι] (c : ι → Zr) (d : Zr) (S : Finset (ι → Zr))
    (h : ∀ f ∈ S, ∑ i, c i * f i + d = 0) (i₀ : ι) (hc : c i₀ ≠ 0) : #S ≤ order ^ (Fintype.card ι - 1) := by
  classical
  have hcard : Fintype.card ({i : ι // i ≠ i₀} → Zr) = order ^ (Fintype.card ι - 1) := by
    rw [Fintype.card_fun, ZMod.card, Fintype.card_subtype_compl, Fintype.card_subtype_eq]
  rw [← hcard, ← Finset.card_univ]
  refine Finset.card_le_card_of_injOn (fun f i => f i.1) (fun _ _ => Finset.mem_coe.2 (Finset.mem_univ _)) ?_
  intro f hf g hg hfg
  have hne : ∀ i, i ≠ i₀ → f i = g i := fun i hi => congrFun hfg ⟨i, hi⟩
  have h1 := h f hf
  have h2 := h g hg
  rw [← Finset.add_sum_erase _ _ (Finset.mem_univ i₀)] at h1 h2
  have h3 : ∑ i ∈ univ.erase i₀, c i * f i = ∑ i ∈ univ.erase i₀, c i * g i :=
    Finset.sum_congr rfl fun i hi => by rw [hne i (Finset.ne_of_mem_erase hi)]
  rw [h3] at h1
  have h4 : c i₀ * f i₀ = c i₀ * g i₀ := by linear_combination h1 - h2
  funext i
  by_cases hi : i = i₀
  · rw [hi]; exact mul_left_cancel₀ hc h4
  · exact hne i hi

theorem pad_val {m : ℕ} (t : Fin m → Zr) (i : Fin m) : pad t i.val = t i := by
  rw [pad, dif_pos i.2]

theorem independent_of_card {m : ℕ} (S : Finset ((Fin m → Zr) × (Fin m → Zr))) (hS : order ^ (2 * m - 1) < #S)
    (c0 c1 : ℕ → Zr) (d : Zr)
    (h : ∀ t ∈ S, ∑ k ∈ range m, (c0 k * pad t.1 k + c1 k * pad t.2 k) + d = 0) :
    d = 0 ∧ ∀ k < m, c0 k = 0 ∧ c1 k = 0 := by
  classical
  set e := (Equiv.sumArrowEquivProdArrow (Fin m) (Fin m) Zr) with he
  set c : Fin m ⊕ Fin m → Zr := Sum.elim (fun i => c0 i) (fun i => c1 i) with hcdef
  have hz : ∀ i, c i = 0 := by
    intro i
    by_contra hne
    have := affine_zeros c d (S.image e.symm) (by
      intro f hf
      obtain ⟨t, ht, rfl⟩ := Finset.mem_image.1 hf
      rw [← h t ht, Fintype.sum_sum_type, Finset.sum_range, ← Finset.sum_add_distrib]
      congr 1
      refine Finset.sum_congr rfl fun i _ => ?_
      rw [pad_val, pad_val]
      rfl) i hne
    rw [Finset.card_image_of_injective _ e.symm.injective, Fintype.card_sum, Fintype.card_fin, ← two_mul] at this
    omega
  have h0 : ∀ k < m, c0 k = 0 ∧ c1 k = 0 := fun k hk =>
    ⟨by simpa [hcdef] using hz (Sum.inl ⟨k, hk⟩), by simpa [hcdef] using hz (Sum.inr ⟨k, hk⟩)⟩
  obtain ⟨t, ht⟩ := Finset.card_pos.1 (lt_of_le_of_lt (Nat.zero_le _) hS)
  refine ⟨?_, h0⟩
  have := h t ht
  rw [Finset.sum_eq_zero fun k hk => by
    rw [(h0 k (Finset.mem_range.1 hk)).1, (h0 k (Finset.mem_range.1 hk)).2]; ring] at this
  simpa using this

/-- The statement of the inner-product argument. -/
def BatchProver.stmt {κ : ℕ} (p : BatchProver G1 (2 ^ κ)) (F : G1) (H : List G1) (B : G1) (x₀ x : Zr)
    (t0 t1 : Fin (2 ^ κ) → Zr) : G1 :=
  p.ρ x t0 t1 • F + x • p.U x + p.Y x + dot ((List.range (2 ^ κ)).map fun k => pad t0 k + pad t1 k) H
    + (x₀ * p.c x t0 t1) • B

/-- The prover is accepted for these challenges. -/
def BatchProver.Acc {κ : ℕ} (p : BatchProver G1 (2 ^ κ)) (E : Curve G1 G2 GT) (α : Zr) (N : ℕ) (s : Pairs G1) (F : G1)
    (G H : List G1) (B : G1) (x₀ x : Zr) (t0 t1 : Fin (2 ^ κ) → Zr) (q : List (Zr × G1 × G1) × Zr × Zr) : Prop :=
  (p.answer x t0 t1 (.leaf 0 0)).Opens E α N (2 ^ κ) s p.V' p.W' x ∧
    acceptsWith (x₀ • B) q.1 (p.stmt F H B x₀ x t0 t1) G H q.2.1 q.2.2

section
variable {κ : ℕ} (p : BatchProver G1 (2 ^ κ)) (E : Curve G1 G2 GT) (α : Zr) (N : ℕ) (s : Pairs G1) (F : G1)
    (G H : List G1) (B : G1) (x₀ : Zr)

theorem BatchProver.wins_ncard :
    ((p.wins E α N s F G H B x₀).ncard : ℚ) / batchTotal κ
      = rate (univ ×ˢ ((univ : Finset ((Fin (2 ^ κ) → Zr) × (Fin (2 ^ κ) → Zr))) ×ˢ challengeLists κ)) fun q =>
        p.Acc E α N s F G H B x₀ q.1 q.2.1.1 q.2.1.2 ((p.ipa q.1 q.2.1.1 q.2.1.2).answer q.2.2) := by
  have hc : (#((univ : Finset Zr) ×ˢ ((univ : Finset ((Fin (2 ^ κ) → Zr) × (Fin (2 ^ κ) → Zr))) ×ˢ challengeLists κ)) : ℚ)
      = batchTotal κ := by
    simp only [Finset.card_product, card_challengeLists, Finset.card_univ, ZMod.card, Fintype.card_prod, Fintype.card_fun,
      Fintype.card_fin]
    simp only [Nat.cast_mul, Nat.cast_pow, order_pred_cast]
    rw [batchTotal, pow_succ, two_mul, pow_add]
    ring
  rw [← hc]
  refine ncard_div_eq_rate _ _ (fun q => (⟨q.1, q.2.1.1, q.2.1.2, q.2.2⟩ : BatchCh (2 ^ κ))) ?_ _ fun b => ?_
  · rintro ⟨a1, ⟨a2, a3⟩, a4⟩ ⟨b1, ⟨b2, b3⟩, b4⟩ h
    simp only [BatchCh.mk.injEq] at h
    obtain ⟨rfl, rfl, rfl, rfl⟩ := h
    rfl
  · simp only [BatchProver.wins, Prover.wins, Set.mem_ofPred_eq, Finset.mem_product, Finset.mem_univ,
      mem_challengeLists, true_and, BatchProver.Acc, BatchProver.stmt]
    constructor
    · rintro ⟨h1, h2, h3, h4⟩
      exact ⟨(b.x, (b.t0, b.t1), b.xs), ⟨h2, h3⟩, ⟨h1, h4⟩, rfl⟩
    · rintro ⟨q, ⟨h2, h3⟩, ⟨h1, h4⟩, rfl⟩
      exact ⟨h1, h2, h3, h4⟩

theorem BatchProver.exists_answer (hG : G.length = 2 ^ κ) (x : Zr) (t : (Fin (2 ^ κ) → Zr) × (Fin (2 ^ κ) → Zr))
    (h : 6 * κ / ((order : ℚ) - 1) < rate (challengeLists κ) fun xs =>
      p.Acc E α N s F G H B x₀ x t.1 t.2 ((p.ipa x t.1 t.2).answer xs)) :
    ∃ tr : TTree G1, tr.Of (p.ipa x t.1 t.2) ∧ tr.WellFormed κ ∧
      (p.answer x t.1 t.2 tr).Accepted E α N (2 ^ κ) s F G H B x₀ p.V' p.W' x (p.U x) (p.Y x) := by
  have hpos := order_pred_pos
  obtain ⟨xs, _, h0⟩ := exists_of_rate (lt_of_le_of_lt (by positivity) h)
  obtain ⟨tr, wf, hof, hacc⟩ := exists_tree_rate κ (p.ipa x t.1 t.2) (p.Acc E α N s F G H B x₀ x t.1 t.2)
    (fun q hq => acceptsWith_length _ _ _ κ q.1 _ _ _ hG hq.2) h
  exact ⟨tr, hof, wf, h0.1, fun q hq => (hacc q hq).2⟩

theorem BatchProver.exists_branch (hG : G.length = 2 ^ κ) (x : Zr)
    (h : 1 / (order : ℚ) + 6 * κ / ((order : ℚ) - 1)
      < rate ((univ : Finset ((Fin (2 ^ κ) → Zr) × (Fin (2 ^ κ) → Zr))) ×ˢ challengeLists κ) fun q =>
        p.Acc E α N s F G H B x₀ x q.1.1 q.1.2 ((p.ipa x q.1.1 q.1.2).answer q.2)) :
    ∃ b : BatchBranch G1, b.x = x ∧ b.Of p ∧ b.Accepted E α N κ s F G H B x₀ p.V' p.W' := by
  classical
  have hpos := order_pred_pos
  have hpos' := order_pos_cast
  have hm : 0 < 2 ^ κ := by positivity
  have hcard : #(univ : Finset ((Fin (2 ^ κ) → Zr) × (Fin (2 ^ κ) → Zr))) = order ^ (2 * 2 ^ κ) := by
    rw [Finset.card_univ, Fintype.card_prod, Fintype.card_fun, Fintype.card_fin, ZMod.card, two_mul, pow_add]
  have hgood := fork (univ : Finset ((Fin (2 ^ κ) → Zr) × (Fin (2 ^ κ) → Zr))) (challengeLists κ)
    (fun t xs => p.Acc E α N s F G H B x₀ x t.1 t.2 ((p.ipa x t.1 t.2).answer xs)) (order ^ (2 * 2 ^ κ - 1))
    (6 * κ / ((order : ℚ) - 1)) (by positivity) (Finset.card_pos.2 ⟨(0, 0), Finset.mem_univ _⟩) (by
      rw [hcard]
      refine lt_of_le_of_lt (le_of_eq ?_) h
      congr 1
      obtain ⟨n, hn⟩ : ∃ n, 2 * 2 ^ κ = n + 1 := ⟨2 * 2 ^ κ - 1, by omega⟩
      rw [hn, Nat.add_sub_cancel, Nat.cast_pow, Nat.cast_pow, pow_succ, div_eq_div_iff (by positivity) hpos'.ne']
      ring)
  set S : Finset ((Fin (2 ^ κ) → Zr) × (Fin (2 ^ κ) → Zr)) := {t ∈ univ | _ < rate _ _} with hSdef
  have key : ∀ t ∈ S, ∃ tr : TTree G1, tr.Of (p.ipa x t.1 t.2) ∧ tr.WellFormed κ ∧
      (p.answer x t.1 t.2 tr).Accepted E α N (2 ^ κ) s F G H B x₀ p.V' p.W' x (p.U x) (p.Y x) := fun t ht =>
    p.exists_answer E α N s F G H B x₀ hG x t (Finset.mem_filter.1 ht).2
  have : Nonempty (TTree G1) := ⟨.leaf 0 0⟩
  choose! tr h1 h2 h3 using key
  have hget : ∀ j < S.toList.length, S.toList.getD j (0, 0) ∈ S := by
    intro j hj
    rw [List.getD_eq_getElem?_getD, List.getElem?_eq_getElem hj, Option.getD_some]
    exact Finset.mem_toList.1 (List.getElem_mem hj)
  refine ⟨⟨x, p.U x, p.Y x, S.toList.length, fun j => p.answer x (S.toList.getD j (0, 0)).1 (S.toList.getD j (0, 0)).2
    (tr (S.toList.getD j (0, 0)))⟩, rfl, ⟨rfl, rfl, fun j hj => ⟨(S.toList.getD j (0, 0)).1, (S.toList.getD j (0, 0)).2, rfl,
      h1 _ (hget j hj)⟩⟩, ?_, fun j hj => ⟨h2 _ (hget j hj), h3 _ (hget j hj)⟩⟩
  intro c0 c1 d hv
  refine independent_of_card S hgood c0 c1 d fun t ht => ?_
  obtain ⟨j, hj, e⟩ := List.getElem_of_mem (Finset.mem_toList.2 ht)
  have := hv j hj
  dsimp only [BatchProver.answer] at this
  rwa [List.getD_eq_getElem?_getD, List.getElem?_eq_getElem hj, Option.getD_some, e] at this

theorem BatchProver.branches_of_wins (hG : G.length = 2 ^ κ)
    (h : batchError κ < ((p.wins E α N s F G H B x₀).ncard : ℚ) / batchTotal κ) :
    ∃ b₁ b₂ : BatchBranch G1, b₁.x ≠ b₂.x ∧ b₁.Of p ∧ b₂.Of p ∧ b₁.Accepted E α N κ s F G H B x₀ p.V' p.W' ∧
      b₂.Accepted E α N κ s F G H B x₀ p.V' p.W' := by
  classical
  have hpos := order_pred_pos
  have hpos' := order_pos_cast
  rw [BatchProver.wins_ncard] at h
  have hgood := fork univ ((univ : Finset ((Fin (2 ^ κ) → Zr) × (Fin (2 ^ κ) → Zr))) ×ˢ challengeLists κ) (fun x q =>
        p.Acc E α N s F G H B x₀ x q.1.1 q.1.2 ((p.ipa x q.1.1 q.1.2).answer q.2)) 1
    (1 / (order : ℚ) + 6 * κ / ((order : ℚ) - 1)) (by positivity) univ_pos (by
      rw [Finset.card_univ, ZMod.card, Nat.cast_one]
      refine lt_of_le_of_lt (le_of_eq ?_) h
      rw [batchError]
      ring)
  obtain ⟨f, hf, hm⟩ := inj_of_card hgood
  choose b hx ho ha using fun i => p.exists_branch E α N s F G H B x₀ hG (f i) (Finset.mem_filter.1 (hm i)).2
  refine ⟨b 0, b 1, fun h => ?_, ho 0, ho 1, ha 0, ha 1⟩
  rw [hx, hx] at h
  exact absurd (hf h) (by decide)

end

end Poe
end PoL
