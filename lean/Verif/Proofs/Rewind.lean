import Verif.Spec.Provers
import Verif.Proofs.SumSound
import Mathlib.Algebra.BigOperators.Ring.Finset
import Mathlib.Algebra.Order.BigOperators.Group.Finset
import Mathlib.Data.Fintype.Pi

/-!
# Helper lemmas for C83: a prover that is accepted often can be rewound
-/

set_option linter.unusedSectionVars false

namespace PoL

open Finset

instance : NeZero order := ⟨(Fact.out : order.Prime).ne_zero⟩

/-- If the numbers `f x ≤ M` add up to more than `m·M + |S|·B`, more than `m` of them are larger than `B`. -/
theorem many_large {α : Type} [DecidableEq α] (S : Finset α) (f : α → ℕ) (M B m : ℕ) (hM : ∀ x ∈ S, f x ≤ M)
    (h : m * M + #S * B < ∑ x ∈ S, f x) : m < #{x ∈ S | B < f x} := by
  by_contra hc
  push Not at hc
  have h1 : ∑ x ∈ S, f x ≤ ∑ x ∈ S, ((if B < f x then M else 0) + B) := by
    apply Finset.sum_le_sum
    intro x hx
    split
    · have := hM x hx; omega
    · omega
  rw [Finset.sum_add_distrib, Finset.sum_const, smul_eq_mul, ← Finset.sum_filter, Finset.sum_const, smul_eq_mul] at h1
  have h2 : #{x ∈ S | B < f x} * M ≤ m * M := Nat.mul_le_mul_right _ hc
  omega

/-- The sequences of `k` non-zero challenges. -/
def challengeLists : ℕ → Finset (List Zr)
  | 0 => {[]}
  | k + 1 => (univ.erase 0).biUnion fun x => (challengeLists k).image (List.cons x)

theorem mem_challengeLists : ∀ (k : ℕ) (xs : List Zr), xs ∈ challengeLists k ↔ xs.length = k ∧ 0 ∉ xs
  | 0, xs => by
    rw [challengeLists, Finset.mem_singleton, List.length_eq_zero_iff]
    constructor
    · rintro rfl; simp
    · exact fun h => h.1
  | k + 1, xs => by
    simp only [challengeLists, Finset.mem_biUnion, Finset.mem_erase, Finset.mem_univ, and_true, Finset.mem_image]
    constructor
    · rintro ⟨x, hx, ys, hys, rfl⟩
      obtain ⟨h1, h2⟩ := (mem_challengeLists k ys).1 hys
      exact ⟨by simp [h1], by simp [h2, Ne.symm hx]⟩
    · rintro ⟨h1, h2⟩
      obtain ⟨x, ys, rfl⟩ := List.exists_cons_of_length_eq_add_one h1
      simp only [List.mem_cons, not_or] at h2
      exact ⟨x, Ne.symm h2.1, ys, (mem_challengeLists k ys).2 ⟨by simpa using h1, h2.2⟩, rfl⟩

theorem card_challengeLists : ∀ k, #(challengeLists k) = (order - 1) ^ k
  | 0 => rfl
  | k + 1 => by
    rw [challengeLists, Finset.card_biUnion]
    · rw [Finset.sum_congr rfl fun x _ => by
        rw [Finset.card_image_of_injective _ (List.cons_injective), card_challengeLists k]]
      rw [Finset.sum_const, Finset.card_erase_of_mem (Finset.mem_univ _), Finset.card_univ, ZMod.card, smul_eq_mul,
        pow_succ, mul_comm]
    · intro x _ y _ hxy
      rw [Function.onFun, Finset.disjoint_left]
      intro l hl hl'
      rw [Finset.mem_image] at hl hl'
      obtain ⟨a, -, rfl⟩ := hl
      obtain ⟨b, -, e⟩ := hl'
      exact hxy (List.cons.inj e).1.symm

/-- Counting the sequences with a property by their first element. -/
theorem card_filter_challengeLists (k : ℕ) (Q : List Zr → Prop) [DecidablePred Q] :
    #{xs ∈ challengeLists (k + 1) | Q xs} = ∑ x ∈ univ.erase (0 : Zr), #{xs ∈ challengeLists k | Q (x :: xs)} := by
  rw [challengeLists, Finset.filter_biUnion, Finset.card_biUnion]
  · refine Finset.sum_congr rfl fun x _ => ?_
    rw [Finset.filter_image, Finset.card_image_of_injective _ (List.cons_injective)]
  · intro x _ y _ hxy
    rw [Function.onFun, Finset.disjoint_left]
    intro l hl hl'
    rw [Finset.mem_filter, Finset.mem_image] at hl hl'
    obtain ⟨⟨a, -, rfl⟩, -⟩ := hl
    obtain ⟨⟨b, -, e⟩, -⟩ := hl'
    exact hxy (List.cons.inj e).1.symm

/-- Among seven numbers there are four with different squares. -/
theorem four_squares (S : Finset Zr) (h : 6 < #S) :
    ∃ x₁ ∈ S, ∃ x₂ ∈ S, ∃ x₃ ∈ S, ∃ x₄ ∈ S, [x₁ ^ 2, x₂ ^ 2, x₃ ^ 2, x₄ ^ 2].Nodup := by
  have hle : #S ≤ 2 * #(S.image (· ^ 2)) := by
    apply Finset.card_le_mul_card_image
    intro y hy
    obtain ⟨x, hx, rfl⟩ := Finset.mem_image.1 hy
    calc #{a ∈ S | a ^ 2 = x ^ 2} ≤ #({x, -x} : Finset Zr) := by
          apply Finset.card_le_card
          intro a ha
          rw [Finset.mem_filter] at ha
          rw [Finset.mem_insert, Finset.mem_singleton]
          exact sq_eq_sq_iff_eq_or_eq_neg.1 ha.2
      _ ≤ 2 := Finset.card_le_two
  obtain ⟨T, hT, hc⟩ := Finset.exists_subset_card_eq (show 4 ≤ #(S.image (· ^ 2)) by omega)
  have hl : T.toList.length = 4 := by rw [Finset.length_toList, hc]
  have hn := T.nodup_toList
  have hm : ∀ y ∈ T.toList, ∃ x ∈ S, x ^ 2 = y := by
    intro y hy
    simpa using Finset.mem_image.1 (hT (Finset.mem_toList.1 hy))
  match hTl : T.toList, hl with
  | [y₁, y₂, y₃, y₄], _ =>
    rw [hTl] at hn hm
    obtain ⟨x₁, h₁, rfl⟩ := hm y₁ (by simp)
    obtain ⟨x₂, h₂, rfl⟩ := hm y₂ (by simp)
    obtain ⟨x₃, h₃, rfl⟩ := hm y₃ (by simp)
    obtain ⟨x₄, h₄, rfl⟩ := hm y₄ (by simp)
    exact ⟨x₁, h₁, x₂, h₂, x₃, h₃, x₄, h₄, hn⟩

namespace BP

/-- A prover accepted for more than `6k·(order-1)^(k-1)` sequences of challenges can be rewound to a tree. -/
theorem exists_tree {G : Type} : ∀ (k : ℕ) (p : Prover G) (acc : List (Zr × G × G) × Zr × Zr → Prop) [DecidablePred acc],
    (∀ q, acc q → q.1.length = k) → 6 * k * (order - 1) ^ (k - 1) < #{xs ∈ challengeLists k | acc (p.answer xs)} →
    ∃ t : TTree G, t.WellFormed k ∧ t.Of p ∧ ∀ q ∈ t.paths, acc q
  | 0, p, acc, _, hlen, h => by
    obtain ⟨xs, hxs⟩ := Finset.card_pos.1 (lt_of_le_of_lt (Nat.zero_le _) h)
    rw [Finset.mem_filter, challengeLists, Finset.mem_singleton] at hxs
    obtain ⟨rfl, hacc⟩ := hxs
    have hnil : (p.answer []).1 = [] := List.length_eq_zero_iff.1 (hlen _ hacc)
    refine ⟨.leaf (p.answer []).2.1 (p.answer []).2.2, trivial, ?_, ?_⟩
    · intro q hq
      rw [TTree.paths, List.mem_singleton] at hq
      subst hq
      exact Prod.ext hnil rfl
    · intro q hq
      rw [TTree.paths, List.mem_singleton] at hq
      subst hq
      rwa [← hnil]
  | k + 1, .stop a b, acc, _, hlen, h => by
    obtain ⟨xs, hxs⟩ := Finset.card_pos.1 (lt_of_le_of_lt (Nat.zero_le _) h)
    rw [Finset.mem_filter] at hxs
    have := hlen _ hxs.2
    simp [Prover.answer] at this
  | k + 1, .round L R next, acc, _, hlen, h => by
    rw [card_filter_challengeLists] at h
    have hsub : ∀ x : Zr, (fun q : List (Zr × G × G) × Zr × Zr => acc ((x, L, R) :: q.1, q.2))
      = fun q => acc ((x, L, R) :: q.1, q.2) := fun _ => rfl
    have hgood := many_large (univ.erase (0 : Zr))
      (fun x => #{xs ∈ challengeLists k | acc ((Prover.round L R next).answer (x :: xs))}) ((order - 1) ^ k)
      (6 * k * (order - 1) ^ (k - 1)) 6 (fun x _ => by
        rw [← card_challengeLists k]; exact Finset.card_filter_le _ _) (by
        refine lt_of_le_of_lt ?_ h
        rw [Finset.card_erase_of_mem (Finset.mem_univ _), Finset.card_univ, ZMod.card, Nat.add_sub_cancel]
        rcases k with _ | k
        · simp
        · rw [Nat.add_sub_cancel, pow_succ]
          apply le_of_eq
          ring)
    obtain ⟨x₁, h₁, x₂, h₂, x₃, h₃, x₄, h₄, hn⟩ := four_squares _ hgood
    have step : ∀ x ∈ (univ.erase (0 : Zr)).filter fun x => 6 * k * (order - 1) ^ (k - 1)
        < #{xs ∈ challengeLists k | acc ((Prover.round L R next).answer (x :: xs))},
        x ≠ 0 ∧ ∃ t : TTree G, t.WellFormed k ∧ t.Of (next x) ∧ ∀ q ∈ t.paths, acc ((x, L, R) :: q.1, q.2) := by
      intro x hx
      rw [Finset.mem_filter, Finset.mem_erase] at hx
      refine ⟨hx.1.1, exists_tree k (next x) (fun q => acc ((x, L, R) :: q.1, q.2)) (fun q hq => ?_) hx.2⟩
      simpa using hlen _ hq
    obtain ⟨z₁, t₁, w₁, o₁, a₁⟩ := step x₁ h₁
    obtain ⟨z₂, t₂, w₂, o₂, a₂⟩ := step x₂ h₂
    obtain ⟨z₃, t₃, w₃, o₃, a₃⟩ := step x₃ h₃
    obtain ⟨z₄, t₄, w₄, o₄, a₄⟩ := step x₄ h₄
    refine ⟨.node L R x₁ x₂ x₃ x₄ t₁ t₂ t₃ t₄, ⟨hn, z₁, z₂, z₃, z₄, w₁, w₂, w₃, w₄⟩, ?_, ?_⟩
    · have one : ∀ (x : Zr) (t : TTree G), t.Of (next x) → ∀ q ∈ t.paths,
          (Prover.round L R next).answer (((x, L, R) :: q.1).map Prod.fst) = ((x, L, R) :: q.1, q.2) := by
        intro x t ho q hq
        rw [List.map_cons, Prover.answer, ho q hq]
      intro q hq
      simp only [TTree.paths, List.mem_append, List.mem_map] at hq
      rcases hq with ((⟨r, hr, rfl⟩ | ⟨r, hr, rfl⟩) | ⟨r, hr, rfl⟩) | ⟨r, hr, rfl⟩
      · exact one _ _ o₁ r hr
      · exact one _ _ o₂ r hr
      · exact one _ _ o₃ r hr
      · exact one _ _ o₄ r hr
    · intro q hq
      simp only [TTree.paths, List.mem_append, List.mem_map] at hq
      rcases hq with ((⟨r, hr, rfl⟩ | ⟨r, hr, rfl⟩) | ⟨r, hr, rfl⟩) | ⟨r, hr, rfl⟩
      · exact a₁ r hr
      · exact a₂ r hr
      · exact a₃ r hr
      · exact a₄ r hr

variable {G1 : Type} [AddCommGroup G1] [Module Zr G1]

theorem acceptsWith_length (U : G1) (a b : Zr) : ∀ (k : ℕ) (rs : List (Zr × G1 × G1)) (P : G1) (g h : List G1),
    g.length = 2 ^ k → acceptsWith U rs P g h a b → rs.length = k
  | 0, [], _, _, _, _, _ => rfl
  | k + 1, [], _, g, _, hg, hacc => by
    obtain ⟨g0, h0, rfl, -⟩ := hacc
    have : 0 < 2 ^ k := by positivity
    rw [pow_succ] at hg
    simp at hg
    omega
  | 0, (x, L, R) :: rs, P, g, h, hg, hacc => by
    exfalso
    rw [acceptsWith] at hacc
    have key : ∀ (rs : List (Zr × G1 × G1)) (P : G1) (g h : List G1), g = [] → ¬ acceptsWith U rs P g h a b := by
      intro rs
      induction rs with
      | nil => rintro P g h rfl ⟨g0, h0, e, -⟩; simp at e
      | cons r rs ih =>
        rintro P g h rfl hc
        exact ih _ _ _ (by simp [halvesG]) hc
    refine key _ _ _ _ ?_ hacc
    obtain ⟨g0, rfl⟩ := List.length_eq_one_iff.1 hg
    simp [halvesG]
  | k + 1, (x, L, R) :: rs, P, g, h, hg, hacc => by
    rw [acceptsWith] at hacc
    rw [List.length_cons, acceptsWith_length U a b k rs _ _ _ ?_ hacc]
    rw [pow_succ] at hg
    simp [halvesG, hg]
    omega

open Classical in
theorem Prover.wins_eq (p : Prover G1) (k : ℕ) (U P : G1) (g h : List G1) :
    p.wins k U P g h = ({xs ∈ challengeLists k |
      acceptsWith U (p.answer xs).1 P g h (p.answer xs).2.1 (p.answer xs).2.2} : Finset (List Zr)) := by
  ext xs
  rw [Prover.wins, Set.mem_ofPred_eq, Finset.mem_coe, Finset.mem_filter, mem_challengeLists, and_assoc]

theorem Prover.wins_ncard_le (p : Prover G1) (k : ℕ) (U P : G1) (g h : List G1) :
    (p.wins k U P g h).ncard ≤ (order - 1) ^ k := by
  classical
  rw [Prover.wins_eq, Set.ncard_coe_finset, ← card_challengeLists k]
  exact Finset.card_filter_le _ _

theorem Prover.wins_ncard_eq_of_all (p : Prover G1) (k : ℕ) (U P : G1) (g h : List G1)
    (hall : ∀ xs : List Zr, xs.length = k → 0 ∉ xs →
      acceptsWith U (p.answer xs).1 P g h (p.answer xs).2.1 (p.answer xs).2.2) :
    (p.wins k U P g h).ncard = (order - 1) ^ k := by
  classical
  rw [Prover.wins_eq, Set.ncard_coe_finset, ← card_challengeLists k, Finset.filter_true_of_mem]
  intro xs hxs
  rw [mem_challengeLists] at hxs
  exact hall xs hxs.1 hxs.2

theorem Prover.tree_of_wins (p : Prover G1) (k : ℕ) (U P : G1) (g h : List G1) (hg : g.length = 2 ^ k)
    (hw : 6 * k * (order - 1) ^ (k - 1) < (p.wins k U P g h).ncard) :
    ∃ t : TTree G1, t.WellFormed k ∧ t.Of p ∧ ∀ q ∈ t.paths, acceptsWith U q.1 P g h q.2.1 q.2.2 := by
  classical
  rw [Prover.wins_eq, Set.ncard_coe_finset] at hw
  exact exists_tree k p (fun q => acceptsWith U q.1 P g h q.2.1 q.2.2)
    (fun q hq => acceptsWith_length U _ _ k q.1 P g h hg hq) hw

/-- The honest prover of the folding rounds. -/
def honestProver (U : G1) : (k : ℕ) → (a b : List Zr) → (g h : List G1) → Prover G1
  | 0, a, b, _, _ => .stop (a.headD 0) (b.headD 0)
  | k + 1, a, b, g, h =>
    let n := 2 ^ k
    .round (dot (a.take n) (g.drop n) + dot (b.drop n) (h.take n) + dot (a.take n) (b.drop n) • U)
      (dot (a.drop n) (g.take n) + dot (b.take n) (h.drop n) + dot (a.drop n) (b.take n) • U)
      fun x => honestProver U k (foldV x x⁻¹ n a) (foldV x⁻¹ x n b) (foldG x⁻¹ x n g) (foldG x x⁻¹ n h)

theorem honestProver_accepted (U : G1) : ∀ (k : ℕ) (a b : List Zr) (g h : List G1), a.length = 2 ^ k → b.length = 2 ^ k →
    g.length = 2 ^ k → h.length = 2 ^ k → ∀ xs : List Zr, xs.length = k → 0 ∉ xs →
    acceptsWith U ((honestProver U k a b g h).answer xs).1 (dot a b • U + dot a g + dot b h) g h
      ((honestProver U k a b g h).answer xs).2.1 ((honestProver U k a b g h).answer xs).2.2
  | 0, a, b, g, h, ha, hb, hg, hh, xs, _, _ => by
    obtain ⟨a0, rfl⟩ := List.length_eq_one_iff.1 ha
    obtain ⟨b0, rfl⟩ := List.length_eq_one_iff.1 hb
    obtain ⟨g0, rfl⟩ := List.length_eq_one_iff.1 hg
    obtain ⟨h0, rfl⟩ := List.length_eq_one_iff.1 hh
    refine ⟨g0, h0, rfl, rfl, ?_⟩
    simp only [honestProver, Prover.answer, dot_cons, dot_nil_left, List.headD_cons, smul_eq_mul]
    module
  | k + 1, a, b, g, h, ha, hb, hg, hh, [], hl, _ => by simp at hl
  | k + 1, a, b, g, h, ha, hb, hg, hh, x :: xs, hl, h0 => by
    rw [pow_succ, mul_comm] at ha hb hg hh
    simp only [List.mem_cons, not_or] at h0
    have := honestProver_accepted U k _ _ _ _ (foldV_length (s := x) (t := x⁻¹) ha) (foldV_length (s := x⁻¹) (t := x) hb)
      (foldG_length (s := x⁻¹) (t := x) hg) (foldG_length (s := x) (t := x⁻¹) hh) xs (by simpa using hl) h0.2
    classical
    rw [fold_identity (Ne.symm h0.1) U ha hb hg hh] at this
    simp only [honestProver, Prover.answer]
    rw [acceptsWith, halvesG_eq _ _ g _ hg, halvesG_eq _ _ h _ hh, sq]
    exact this

end BP

namespace Sum

open BP

variable {G1 : Type} [AddCommGroup G1] [Module Zr G1]

open Classical in
theorem Prover.wins_ncard (p : Prover G1) (k : ℕ) (x₀ : Zr) (b : List Zr) (F : G1) (Gs H : List G1) (U V : G1) :
    (p.wins k x₀ b F Gs H U V).ncard = ∑ x : Zr, ((p.next x).2.wins k (x₀ • U)
      ((p.next x).1 • F + V + x • p.W + dot b H + (x₀ * (p.c * x)) • U) Gs H).ncard := by
  set st := fun x : Zr => (p.next x).1 • F + V + x • p.W + dot b H + (x₀ * (p.c * x)) • U with hst
  have : p.wins k x₀ b F Gs H U V = ((univ : Finset Zr).sigma fun x => ({xs ∈ challengeLists k |
      acceptsWith (x₀ • U) ((p.next x).2.answer xs).1 (st x) Gs H ((p.next x).2.answer xs).2.1
        ((p.next x).2.answer xs).2.2} : Finset (List Zr))).image fun c => (c.1, c.2) := by
    ext ⟨x, xs⟩
    rw [Prover.wins, Set.mem_ofPred_eq, Prover.wins_eq]
    simp [hst]
  rw [this, Set.ncard_coe_finset, Finset.card_image_of_injective, Finset.card_sigma]
  · refine Finset.sum_congr rfl fun x _ => ?_
    rw [Prover.wins_eq, Set.ncard_coe_finset]
  · rintro ⟨x, xs⟩ ⟨y, ys⟩ h
    simp only [Prod.mk.injEq] at h
    rw [h.1, h.2]

theorem Prover.wins_ncard_eq_of_all (p : Prover G1) (k : ℕ) (x₀ : Zr) (b : List Zr) (F : G1) (Gs H : List G1) (U V : G1)
    (hall : ∀ (x : Zr) (xs : List Zr), xs.length = k → 0 ∉ xs → acceptsWith (x₀ • U) ((p.next x).2.answer xs).1
      ((p.next x).1 • F + V + x • p.W + dot b H + (x₀ * (p.c * x)) • U) Gs H ((p.next x).2.answer xs).2.1
        ((p.next x).2.answer xs).2.2) :
    (p.wins k x₀ b F Gs H U V).ncard = order * (order - 1) ^ k := by
  rw [Prover.wins_ncard, Finset.sum_congr rfl fun x _ =>
    BP.Prover.wins_ncard_eq_of_all _ k _ _ _ _ (hall x), Finset.sum_const, Finset.card_univ, ZMod.card, smul_eq_mul]

theorem Prover.answers_of_wins (p : Prover G1) (k : ℕ) (x₀ : Zr) (b : List Zr) (F : G1) (Gs H : List G1) (U V : G1)
    (hGs : Gs.length = 2 ^ k)
    (hw : 2 * (order - 1) ^ k + order * (6 * k * (order - 1) ^ (k - 1)) < (p.wins k x₀ b F Gs H U V).ncard) :
    ∃ a₁ a₂ a₃ : Answer G1, a₁.x ≠ a₂.x ∧ a₁.x ≠ a₃.x ∧ a₂.x ≠ a₃.x ∧
      ∀ a ∈ [a₁, a₂, a₃], a.Of p ∧ a.tree.WellFormed k ∧ a.Accepted x₀ p.c b F Gs H U V p.W := by
  classical
  set st := fun x : Zr => (p.next x).1 • F + V + x • p.W + dot b H + (x₀ * (p.c * x)) • U with hst
  rw [Prover.wins_ncard] at hw
  have hgood := many_large univ (fun x => ((p.next x).2.wins k (x₀ • U) (st x) Gs H).ncard) ((order - 1) ^ k)
    (6 * k * (order - 1) ^ (k - 1)) 2 (fun x _ => Prover.wins_ncard_le _ _ _ _ _ _)
    (by rw [Finset.card_univ, ZMod.card]; exact hw)
  obtain ⟨x₁, x₂, x₃, h1, h2, h3, h12, h13, h23⟩ := Finset.two_lt_card_iff.1 hgood
  have step : ∀ x ∈ (univ : Finset Zr).filter fun x => 6 * k * (order - 1) ^ (k - 1)
      < ((p.next x).2.wins k (x₀ • U) (st x) Gs H).ncard,
      ∃ a : Answer G1, a.x = x ∧ a.Of p ∧ a.tree.WellFormed k ∧ a.Accepted x₀ p.c b F Gs H U V p.W := by
    intro x hx
    rw [Finset.mem_filter] at hx
    obtain ⟨t, wf, hof, hacc⟩ := (p.next x).2.tree_of_wins k (x₀ • U) (st x) Gs H hGs hx.2
    exact ⟨⟨x, (p.next x).1, t⟩, rfl, ⟨rfl, hof⟩, wf, hacc⟩
  obtain ⟨a₁, e1, r1⟩ := step x₁ h1
  obtain ⟨a₂, e2, r2⟩ := step x₂ h2
  obtain ⟨a₃, e3, r3⟩ := step x₃ h3
  refine ⟨a₁, a₂, a₃, by rwa [e1, e2], by rwa [e1, e3], by rwa [e2, e3], fun a ha => ?_⟩
  simp only [List.mem_cons, List.not_mem_nil, or_false] at ha
  rcases ha with rfl | rfl | rfl
  · exact r1
  · exact r2
  · exact r3

end Sum
end PoL
