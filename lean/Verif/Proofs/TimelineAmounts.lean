import Verif.Spec.Timeline
import Verif.Proofs.ViewPrivacy
import Verif.Proofs.SameRoot
import Verif.Proofs.Rewrite

/-! # What is written below a vertex determines what is committed there (helper lemmas) -/

set_option linter.unusedSectionVars false

namespace PoL.Pol
open Spec BP PP Verkle

/-- The writes below `q`. -/
def below (q : List ℕ) (h : List (List ℕ × ℤ)) : List (List ℕ × ℤ) := h.filter fun x => decide (q <+: x.1)

theorem mem_below {q : List ℕ} {h : List (List ℕ × ℤ)} {e : List ℕ × ℤ} : e ∈ below q h ↔ e ∈ h ∧ q <+: e.1 := by
  unfold below
  rw [List.mem_filter, decide_eq_true_iff]

theorem below_append (q : List ℕ) (h h' : List (List ℕ × ℤ)) : below q (h ++ h') = below q h ++ below q h' := List.filter_append ..

theorem latest_below {q p : List ℕ} (hq : q <+: p) (h : List (List ℕ × ℤ)) : latest (below q h) p = latest h p := by
  unfold latest lastPut below
  rw [← List.filter_reverse, List.find?_filter]
  congr 3
  funext e
  by_cases he : e.1 = p
  · simp [he, hq]
  · simp [he]

theorem pathsBelow_set {q r : List ℕ} (hq : q <+: r) (h : List (List ℕ × ℤ)) :
    ((below q h).map Prod.fst).toFinset.filter (fun p => r <+: p) = (h.map Prod.fst).toFinset.filter (fun p => r <+: p) := by
  ext p
  simp only [Finset.mem_filter, List.mem_toFinset, List.mem_map, mem_below]
  constructor
  · rintro ⟨⟨e, ⟨he, -⟩, rfl⟩, hp⟩
    exact ⟨⟨e, he, rfl⟩, hp⟩
  · rintro ⟨⟨e, he, rfl⟩, hp⟩
    exact ⟨⟨e, ⟨he, hq.trans hp⟩, rfl⟩, hp⟩

theorem amountBelow_below {q r : List ℕ} (hq : q <+: r) (h : List (List ℕ × ℤ)) : amountBelow (below q h) r = amountBelow h r := by
  unfold amountBelow
  rw [pathsBelow_set hq]
  refine Finset.sum_congr rfl fun p hp => ?_
  exact latest_below (hq.trans (Finset.mem_filter.1 hp).2) h

theorem pathsBelow_below (q : List ℕ) (h : List (List ℕ × ℤ)) : pathsBelow (below q h) q = pathsBelow h q := by
  unfold pathsBelow
  rw [pathsBelow_set List.prefix_rfl]

theorem deviation_none (F : ℕ) (h : List (List ℕ × ℤ)) (q : List ℕ) (hh : ¬ ∃ e ∈ h, q <+: e.1) : deviation F h q = 0 := by
  unfold deviation
  refine Finset.sum_eq_zero fun n _ => if_neg ?_
  rintro ⟨⟨e, he, hq⟩, -⟩
  exact hh ⟨e, List.mem_of_mem_take he, hq⟩

theorem deviation_snoc_new (F : ℕ) (h : List (List ℕ × ℤ)) (e : List ℕ × ℤ) (q : List ℕ) (hh : ¬ ∃ e ∈ h, q <+: e.1) :
    deviation F (h ++ [e]) q = 0 := by
  unfold deviation
  refine Finset.sum_eq_zero fun n hn => if_neg ?_
  rintro ⟨⟨x, hx, hq⟩, -⟩
  rw [Finset.mem_range, List.length_append, List.length_singleton] at hn
  rw [List.take_append_of_le_length (by omega)] at hx
  exact hh ⟨x, List.mem_of_mem_take hx, hq⟩

theorem deviation_below (F : ℕ) (q : List ℕ) (h : List (List ℕ × ℤ)) : deviation F (below q h) q = deviation F h q := by
  induction h using List.reverseRecOn with
  | nil => rfl
  | append_singleton h e ih =>
    rw [below_append]
    by_cases he : q <+: e.1
    · have e1 : below q [e] = [e] := by simp [below, he]
      have ht : (∃ e ∈ below q h, q <+: e.1) ↔ ∃ e ∈ h, q <+: e.1 := by
        constructor
        · rintro ⟨x, hx, hq⟩
          exact ⟨x, (mem_below.1 hx).1, hq⟩
        · rintro ⟨x, hx, hq⟩
          exact ⟨x, mem_below.2 ⟨hx, hq⟩, hq⟩
      rw [e1]
      by_cases hh : ∃ e ∈ h, q <+: e.1
      · rw [deviation_snoc F _ e q (ht.2 hh) he, deviation_snoc F h e q hh he, ih]
        congr 1
        have e2 : below q h ++ [e] = below q (h ++ [e]) := by rw [below_append, e1]
        unfold strayed
        rw [e2, amountBelow_below List.prefix_rfl, amountBelow_below List.prefix_rfl, pathsBelow_below,
          latest_below (List.prefix_append _ _)]
      · rw [deviation_snoc_new F h e q hh, deviation_snoc_new F _ e q (ht.not.2 hh)]
    · have e1 : below q [e] = [] := by simp [below, he]
      rw [e1, List.append_nil, ih, deviation_snoc_off F h e q he]

theorem offset_below (F L : ℕ) (α : Zr) (h : List (List ℕ × ℤ)) (q : List ℕ) : offset F L α (below q h) q = offset F L α h q := by
  unfold offset
  rw [amountBelow_below List.prefix_rfl, deviation_below]
  congr 3
  refine List.map_congr_left fun j _ => ?_
  rw [amountBelow_below (List.prefix_append _ _)]

/-! ### Batches -/

variable {L T : ℕ} {b b' : ℕ → List (List ℕ × ℤ)}

theorem upTo_map {A B : Type} (f : A → B) (b : ℕ → List A) (t : ℕ) : (upTo b t).map f = upTo (fun t => (b t).map f) t := by
  induction t with
  | zero => rfl
  | succ t ih => rw [upTo, upTo, List.map_append, ih]

theorem mem_upTo {A : Type} {b : ℕ → List A} {t : ℕ} {e : A} : e ∈ upTo b t ↔ ∃ u ≤ t, e ∈ b u := by
  induction t with
  | zero => simp [upTo]
  | succ t ih =>
    rw [upTo, List.mem_append, ih]
    constructor
    · rintro (⟨u, hu, he⟩ | he)
      · exact ⟨u, by omega, he⟩
      · exact ⟨t + 1, le_rfl, he⟩
    · rintro ⟨u, hu, he⟩
      rcases Nat.lt_succ_iff_lt_or_eq.1 (Nat.lt_succ_of_le hu) with h | rfl
      · exact .inl ⟨u, by omega, he⟩
      · exact .inr he

theorem below_upTo (q : List ℕ) (b : ℕ → List (List ℕ × ℤ)) (t : ℕ) : below q (upTo b t) = upTo (fun t => below q (b t)) t := by
  induction t with
  | zero => rfl
  | succ t ih => rw [upTo, upTo, below_append, ih]

theorem upTo_congr {A : Type} {b b' : ℕ → List A} (t : ℕ) (h : ∀ u ≤ t, b u = b' u) : upTo b t = upTo b' t := by
  induction t with
  | zero => exact h 0 le_rfl
  | succ t ih => rw [upTo, upTo, ih fun u hu => h u (by omega), h (t + 1) le_rfl]

theorem upTo_empty {A : Type} {b : ℕ → List A} (t : ℕ) (h : ∀ u, 1 ≤ u → u ≤ t → b u = []) : upTo b t = b 0 := by
  induction t with
  | zero => rfl
  | succ t ih => rw [upTo, ih fun u h1 hu => h u h1 (by omega), h (t + 1) (by omega) le_rfl, List.append_nil]

/-- A lowest vertex that is written to after batch 0. -/
def Again (b : ℕ → List (List ℕ × ℤ)) (T : ℕ) (q : List ℕ) : Prop := ∃ t, 1 ≤ t ∧ t < T ∧ ∃ e ∈ b t, e.1.dropLast = q

structure Agree (L T : ℕ) (b b' : ℕ → List (List ℕ × ℤ)) : Prop where
  fst : ∀ t, (b t).map Prod.fst = (b' t).map Prod.fst
  len : ∀ t, ∀ e ∈ b t, e.1.length = L
  again : ∀ q, Again b T q → ∀ u, below q (b u) = below q (b' u)

theorem Agree.len' (h : Agree L T b b') : ∀ t, ∀ e ∈ b' t, e.1.length = L := by
  intro t e he
  have : e.1 ∈ (b t).map Prod.fst := by rw [h.fst]; exact List.mem_map.2 ⟨e, he, rfl⟩
  obtain ⟨e', he', h1⟩ := List.mem_map.1 this
  rw [← h1]
  exact h.len t e' he'

theorem dropLast_of_prefix {q p : List ℕ} (h : q <+: p) (hl : q.length + 1 = p.length) : p.dropLast = q := by
  obtain ⟨r, rfl⟩ := h
  rw [List.length_append] at hl
  obtain ⟨x, rfl⟩ := List.length_eq_one_iff.1 (show r.length = 1 by omega)
  simp

theorem Again.congr (h : Agree L T b b') {q : List ℕ} : Again b T q ↔ Again b' T q := by
  have key : ∀ c : ℕ → List (List ℕ × ℤ), Again c T q ↔ ∃ t, 1 ≤ t ∧ t < T ∧ ∃ p ∈ (c t).map Prod.fst, p.dropLast = q := by
    intro c
    simp [Again]
  rw [key, key]
  simp only [h.fst]

/-- Below a lowest vertex that is not written to after batch 0 nothing is added. -/
theorem below_still (hlen : ∀ t, ∀ e ∈ b t, e.1.length = L) {q : List ℕ} (hq : q.length + 1 = L) (hn : ¬ Again b T q) {t : ℕ} (ht : t < T) :
    below q (upTo b t) = below q (b 0) := by
  rw [below_upTo]
  refine upTo_empty t fun u h1 hu => ?_
  rw [List.eq_nil_iff_forall_not_mem]
  intro e he
  obtain ⟨he, hp⟩ := mem_below.1 he
  exact hn ⟨u, h1, by omega, e, he, dropLast_of_prefix hp (by rw [hlen u e he]; exact hq)⟩

theorem below_same (h : Agree L T b b') {q : List ℕ} (ha : Again b T q) (t : ℕ) : below q (upTo b t) = below q (upTo b' t) := by
  rw [below_upTo, below_upTo]
  exact upTo_congr t fun u _ => h.again q ha u

theorem paths_same (h : Agree L T b b') (t : ℕ) : (upTo b t).map Prod.fst = (upTo b' t).map Prod.fst := by
  rw [upTo_map, upTo_map]
  exact upTo_congr t fun u _ => h.fst u

/-- The difference between the two sequences at one path does not change after batch 0. -/
theorem latest_diff (h : Agree L T b b') (hL : 1 ≤ L) {t : ℕ} (ht : t < T) {p : List ℕ} (hp : p.length = L) :
    latest (upTo b t) p - latest (upTo b' t) p = latest (b 0) p - latest (b' 0) p := by
  have hd : p.dropLast <+: p := List.dropLast_prefix p
  have hl : p.dropLast.length + 1 = L := by rw [List.length_dropLast]; omega
  by_cases ha : Again b T p.dropLast
  · rw [← latest_below hd (upTo b t), ← latest_below hd (upTo b' t), below_same h ha, ← latest_below hd (b 0),
      ← latest_below hd (b' 0), h.again _ ha 0, sub_self, sub_self]
  · rw [← latest_below hd (upTo b t), ← latest_below hd (upTo b' t), below_still h.len hl ha ht,
      below_still h.len' hl ((Again.congr h).not.1 ha) ht, latest_below hd, latest_below hd]

theorem latest_absent {h : List (List ℕ × ℤ)} {p : List ℕ} (hp : p ∉ h.map Prod.fst) : latest h p = 0 := by
  unfold latest lastPut
  rw [List.find?_eq_none.2 (by
    intro e he hc
    rw [List.mem_reverse] at he
    exact hp (List.mem_map.2 ⟨e, he, of_decide_eq_true hc⟩))]
  rfl

theorem amount_diff (h : Agree L T b b') (hL : 1 ≤ L) {t : ℕ} (ht : t < T) (r : List ℕ) :
    amountBelow (upTo b t) r - amountBelow (upTo b' t) r = amountBelow (b 0) r - amountBelow (b' 0) r := by
  unfold amountBelow
  rw [← paths_same h t, ← h.fst 0, ← Finset.sum_sub_distrib, ← Finset.sum_sub_distrib]
  symm
  have hsub : ∀ p, p ∈ (b 0).map Prod.fst → p ∈ (upTo b t).map Prod.fst := by
    intro p hp
    obtain ⟨e, he, rfl⟩ := List.mem_map.1 hp
    exact List.mem_map.2 ⟨e, mem_upTo.2 ⟨0, by omega, he⟩, rfl⟩
  have hlen : ∀ p, p ∈ (upTo b t).map Prod.fst → p.length = L := by
    intro p hp
    obtain ⟨e, he, rfl⟩ := List.mem_map.1 hp
    obtain ⟨u, -, he⟩ := mem_upTo.1 he
    exact h.len u e he
  rw [Finset.sum_subset (s₂ := (((upTo b t).map Prod.fst).toFinset.filter fun p => r <+: p))]
  · refine Finset.sum_congr rfl fun p hp => ?_
    exact (latest_diff h hL ht (hlen p (List.mem_toFinset.1 (Finset.mem_filter.1 hp).1))).symm
  · intro p hp
    rw [Finset.mem_filter, List.mem_toFinset] at hp ⊢
    exact ⟨hsub p hp.1, hp.2⟩
  · intro p hp hn
    rw [Finset.mem_filter, List.mem_toFinset] at hp hn
    have hn0 : p ∉ (b 0).map Prod.fst := fun hc => hn ⟨hc, hp.2⟩
    rw [latest_absent hn0, latest_absent (by rw [← h.fst 0]; exact hn0), sub_self]

theorem intToZr_sub_congr {a b c d : ℤ} (h : a - b = c - d) : intToZr a - intToZr b = intToZr c - intToZr d := by
  unfold intToZr
  rw [← Int.cast_sub, ← Int.cast_sub, h]

theorem expo_map_diff (α : Zr) (l : List ℕ) (f g f' g' : ℕ → Zr) (h : ∀ j ∈ l, f j - g j = f' j - g' j) :
    expo α (l.map f) - expo α (l.map g) = expo α (l.map f') - expo α (l.map g') := by
  induction l using List.reverseRecOn with
  | nil => rfl
  | append_singleton l j ih =>
    simp only [List.map_append, List.map_cons, List.map_nil, expo_concat, List.length_map]
    have h1 := ih fun j hj => h j (List.mem_append_left _ hj)
    have h2 := h j (by simp)
    linear_combination h1 + α ^ (l.length + 1) * h2

theorem expo_diff (α : Zr) (l : List ℕ) (f g f' g' : ℕ → Zr) (x y x' y' : Zr) (h : ∀ j ∈ l, f j - g j = f' j - g' j)
    (hx : x - y = x' - y') :
    expo α (l.map f ++ [x]) - expo α (l.map g ++ [y]) = expo α (l.map f' ++ [x']) - expo α (l.map g' ++ [y']) := by
  simp only [expo_concat, List.length_map]
  have h1 := expo_map_diff α l f g f' g' h
  linear_combination h1 + α ^ (l.length + 1) * hx

theorem offset_diff {F : ℕ} (α : Zr) (h : Agree L T b b') (hL : 1 ≤ L) {t : ℕ} (ht : t < T) (q : List ℕ) :
    offset F L α (upTo b t) q - offset F L α (upTo b' t) q = offset F L α (b 0) q - offset F L α (b' 0) q := by
  by_cases hl : q.length + 1 = L
  · by_cases ha : Again b T q
    · rw [← offset_below F L α (upTo b t), ← offset_below F L α (upTo b' t), below_same h ha, ← offset_below F L α (b 0),
        ← offset_below F L α (b' 0), h.again _ ha 0, sub_self, sub_self]
    · rw [← offset_below F L α (upTo b t), ← offset_below F L α (upTo b' t), below_still h.len hl ha ht,
        below_still h.len' hl ((Again.congr h).not.1 ha) ht, offset_below, offset_below]
  · unfold offset
    rw [if_neg hl, if_neg hl, if_neg hl, if_neg hl, add_zero, add_zero, add_zero, add_zero]
    exact expo_diff α _ _ _ _ _ _ _ _ _ (fun j _ => intToZr_sub_congr (amount_diff h hL ht _))
      (intToZr_sub_congr (amount_diff h hL ht _))

end PoL.Pol
