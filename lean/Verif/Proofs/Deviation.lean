import Verif.Proofs.VerkleExact
import Verif.Spec.VerkleRun
import Mathlib.Algebra.Polynomial.Roots

/-! When the deviation is not zero. -/

set_option linter.unusedSectionVars false

namespace PoL.Verkle
open Spec Polynomial

theorem pathsBelow_eq {h : List (List ℕ × ℤ)} (hn : (h.map Prod.fst).Nodup) (q : List ℕ) :
    pathsBelow h q = writesBelow h q := by
  unfold pathsBelow writesBelow
  have : (h.map Prod.fst).toFinset.filter (fun p => q <+: p)
      = ((h.map Prod.fst).filter fun p => decide (q <+: p)).toFinset := by
    ext p; simp
  rw [this, List.toFinset_card_of_nodup (hn.filter _), ← List.countP_eq_length_filter, List.countP_map]
  rfl

theorem latest_snoc (h : List (List ℕ × ℤ)) (e : List ℕ × ℤ) (p : List ℕ) :
    latest (h ++ [e]) p = if e.1 = p then e.2 else latest h p := by
  unfold latest
  rw [Sparse.lastPut_concat]
  split_ifs <;> rfl

theorem amountBelow_snoc {h : List (List ℕ × ℤ)} {e : List ℕ × ℤ} (he : e.1 ∉ h.map Prod.fst) {q : List ℕ}
    (hq : q <+: e.1) : amountBelow (h ++ [e]) q = amountBelow h q + e.2 := by
  unfold amountBelow
  have hset : ((h ++ [e]).map Prod.fst).toFinset.filter (fun p => q <+: p)
      = insert e.1 ((h.map Prod.fst).toFinset.filter fun p => q <+: p) := by
    ext p
    simp only [List.map_append, List.map_cons, List.map_nil, List.toFinset_append, Finset.mem_filter, Finset.mem_union,
      List.mem_toFinset, List.mem_singleton, Finset.mem_insert]
    constructor
    · rintro ⟨h1 | h1, h2⟩
      · exact .inr ⟨h1, h2⟩
      · exact .inl h1
    · rintro (rfl | ⟨h1, h2⟩)
      · exact ⟨.inr rfl, hq⟩
      · exact ⟨.inl h1, h2⟩
  rw [hset, Finset.sum_insert (by simp only [Finset.mem_filter, List.mem_toFinset]; exact fun hc => he hc.1),
    latest_snoc, if_pos rfl, add_comm]
  congr 1
  refine Finset.sum_congr rfl fun p hp => ?_
  rw [latest_snoc, if_neg]
  rintro rfl
  rw [Finset.mem_filter, List.mem_toFinset] at hp
  exact he hp.1

theorem latest_le_amountBelow {h : List (List ℕ × ℤ)} (hn : ∀ e ∈ h, 0 ≤ e.2) {q p : List ℕ} (hq : q <+: p) :
    latest h p ≤ amountBelow h q := by
  by_cases hp : p ∈ h.map Prod.fst
  · exact Finset.single_le_sum (f := fun p => latest h p) (fun p _ => Pol.latest_nonneg hn p)
      (Finset.mem_filter.2 ⟨List.mem_toFinset.2 hp, hq⟩)
  · have : latest h p = 0 := by
      unfold latest
      have : ¬ (lastPut h p).isSome := fun hc => hp ((lastPut_isSome h p).1 hc)
      rw [Option.not_isSome_iff_eq_none] at this
      rw [this]; rfl
    rw [this]
    exact Pol.amountBelow_nonneg hn q

theorem amountBelow_le_sum {h : List (List ℕ × ℤ)} (hn : ∀ e ∈ h, 0 ≤ e.2) (hnd : (h.map Prod.fst).Nodup) (q : List ℕ) :
    amountBelow h q ≤ (h.map Prod.snd).sum := by
  induction h using List.reverseRecOn with
  | nil => simp [amountBelow]
  | append_singleton h e ih =>
    rw [List.map_append, List.nodup_append] at hnd
    have ih := ih (fun e he => hn e (by simp [he])) hnd.1
    have hen := hn e (by simp)
    have hne : e.1 ∉ h.map Prod.fst := fun hc => hnd.2.2 _ hc e.1 (by simp) rfl
    rw [List.map_append, List.sum_append]
    simp only [List.map_cons, List.map_nil, List.sum_cons, List.sum_nil, add_zero]
    by_cases hq : q <+: e.1
    · rw [amountBelow_snoc hne hq]; omega
    · have : amountBelow (h ++ [e]) q = amountBelow h q := by
        unfold amountBelow
        have hset : ((h ++ [e]).map Prod.fst).toFinset.filter (fun p => q <+: p)
            = (h.map Prod.fst).toFinset.filter fun p => q <+: p := by
          ext p
          simp only [List.map_append, List.map_cons, List.map_nil, List.toFinset_append, Finset.mem_filter, Finset.mem_union,
            List.mem_toFinset, List.mem_singleton]
          constructor
          · rintro ⟨h1 | rfl, h2⟩
            · exact ⟨h1, h2⟩
            · exact absurd h2 hq
          · rintro ⟨h1, h2⟩
            exact ⟨.inl h1, h2⟩
        rw [hset]
        refine Finset.sum_congr rfl fun p hp => ?_
        rw [latest_snoc, if_neg]
        rintro rfl
        rw [Finset.mem_filter] at hp
        exact hq hp.2
      rw [this]; omega

theorem coeff_strayed (F : ℕ) (hF : 3 ≤ F) (old new : List (List ℕ × ℤ)) (q : List ℕ) :
    (strayed F old new q).coeff 3
      = if pathsBelow new q = 2 then ((amountBelow new q - latest old (q ++ [pathsBelow new q]) : ℤ) : Zr) else 0 := by
  unfold strayed
  rw [coeff_sub, coeff_C_mul_X_pow, coeff_C_mul_X_pow, if_neg (show ¬ 3 = F + 1 by omega), sub_zero]
  by_cases h : pathsBelow new q = 2
  · rw [if_pos (by omega), if_pos h]
  · rw [if_neg (by omega), if_neg h]

theorem writesBelow_snoc (h : List (List ℕ × ℤ)) (e : List ℕ × ℤ) (q : List ℕ) :
    writesBelow (h ++ [e]) q = writesBelow h q + if q <+: e.1 then 1 else 0 := by
  unfold writesBelow
  rw [List.countP_append]
  congr 1
  simp [List.countP_cons]

theorem writesBelow_zero {h : List (List ℕ × ℤ)} {q : List ℕ} (h0 : writesBelow h q = 0) : ¬ ∃ e ∈ h, q <+: e.1 := by
  rintro ⟨e, he, hq⟩
  unfold writesBelow at h0
  rw [List.countP_eq_zero] at h0
  exact h0 e he (by simpa using hq)

/-- Different paths, positive amounts: the coefficient of the third power. -/
theorem coeff_deviation (F : ℕ) (hF : 3 ≤ F) (h : List (List ℕ × ℤ)) (hn : ∀ e ∈ h, 0 < e.2)
    (hnd : (h.map Prod.fst).Nodup) (q : List ℕ) :
    (writesBelow h q ≤ 1 → (deviation F h q).coeff 3 = 0) ∧
    (2 ≤ writesBelow h q → ∃ c : ℤ, 0 < c ∧ c ≤ (h.map Prod.snd).sum ∧ (deviation F h q).coeff 3 = (c : Zr)) := by
  induction h using List.reverseRecOn with
  | nil => exact ⟨fun _ => by simp [deviation], fun hc => by simp [writesBelow] at hc⟩
  | append_singleton h e ih =>
    have hnd' := hnd
    rw [List.map_append, List.nodup_append] at hnd
    obtain ⟨ih1, ih2⟩ := ih (fun e he => hn e (by simp [he])) hnd.1
    have hne : e.1 ∉ h.map Prod.fst := fun hc => hnd.2.2 _ hc e.1 (by simp) rfl
    have hen := hn e (by simp)
    have hsum : ((h ++ [e]).map Prod.snd).sum = (h.map Prod.snd).sum + e.2 := by simp
    have hn0 : ∀ e ∈ h, 0 ≤ e.2 := fun e he => (hn e (by simp [he])).le
    rw [deviation_concat, coeff_add, writesBelow_snoc, hsum]
    by_cases hq : q <+: e.1
    · rw [if_pos hq]
      rcases Nat.lt_or_ge 1 (writesBelow h q) with hw | hw
      · refine ⟨fun hc => by omega, fun _ => ?_⟩
        obtain ⟨c, c1, c2, c3⟩ := ih2 hw
        refine ⟨c, c1, by omega, ?_⟩
        rw [c3]
        split_ifs with hc
        · rw [coeff_strayed F hF, if_neg, add_zero]
          rw [pathsBelow_eq hnd', writesBelow_snoc, if_pos hq]
          omega
        · simp
      · rw [ih1 hw, zero_add]
        rcases Nat.eq_zero_or_pos (writesBelow h q) with h0 | h0
        · rw [if_neg (fun hc => writesBelow_zero h0 hc.1)]
          exact ⟨fun _ => by simp, fun hc => by omega⟩
        · have hw1 : writesBelow h q = 1 := by omega
          refine ⟨fun hc => by omega, fun _ => ?_⟩
          have hex : ∃ e ∈ h, q <+: e.1 := by
            unfold writesBelow at h0
            obtain ⟨a, ha, hb⟩ := List.countP_pos_iff.1 h0
            exact ⟨a, ha, by simpa using hb⟩
          rw [if_pos ⟨hex, hq⟩, coeff_strayed F hF, if_pos (by
            rw [pathsBelow_eq hnd', writesBelow_snoc, if_pos hq]; omega)]
          refine ⟨_, ?_, ?_, rfl⟩
          · rw [amountBelow_snoc hne hq]
            have := latest_le_amountBelow hn0 (List.prefix_append q [pathsBelow (h ++ [e]) q])
            omega
          · have h1 := amountBelow_le_sum (h := h ++ [e]) (fun e he => (hn e he).le) hnd' q
            have h2 := Pol.latest_nonneg hn0 (q ++ [pathsBelow (h ++ [e]) q])
            rw [hsum] at h1
            omega
    · rw [if_neg hq, if_neg (fun hc => hq hc.2), coeff_zero, add_zero, add_zero]
      refine ⟨ih1, fun hw => ?_⟩
      obtain ⟨c, c1, c2, c3⟩ := ih2 hw
      exact ⟨c, c1, by omega, c3⟩

theorem natDegree_strayed (F : ℕ) (old new : List (List ℕ × ℤ)) (q : List ℕ) (hk : pathsBelow new q ≤ F) :
    (strayed F old new q).natDegree ≤ F + 1 := by
  unfold strayed
  refine (natDegree_sub_le _ _).trans (max_le ?_ ?_)
  · exact (natDegree_C_mul_X_pow_le _ _).trans (by omega)
  · exact natDegree_C_mul_X_pow_le _ _

theorem natDegree_deviation (F : ℕ) (h : List (List ℕ × ℤ)) (q : List ℕ)
    (hk : ∀ n, pathsBelow (h.take n) q ≤ F) : (deviation F h q).natDegree ≤ F + 1 := by
  unfold deviation
  refine natDegree_sum_le_of_forall_le _ _ fun n _ => ?_
  split_ifs
  · exact natDegree_strayed F _ _ q (hk _)
  · simp

theorem pathsBelow_le {id2Path : Str → Option (List ℕ)} {F L : ℕ} {hist : List (Str × ℤ)}
    (hids : ValidIds id2Path F L hist) (q : List ℕ) (hq : q.length + 1 = L) (n : ℕ) :
    pathsBelow ((byPath id2Path hist).take n) q ≤ F := by
  have : (byPath id2Path hist).take n = byPath id2Path (hist.take n) := by simp [byPath, List.map_take]
  rw [this, ← histVals_count (F := F) (fun e he => hids e (List.mem_of_mem_take he)) q hq]
  exact (List.countP_le_length).trans (by simp)

/-- The parameters for which the deviation vanishes. -/
theorem deviation_roots {id2Path : Str → Option (List ℕ)} {F L : ℕ} (hF : 3 ≤ F) {hist : List (Str × ℤ)}
    (hids : ValidIds id2Path F L hist) (hn : ∀ e ∈ hist, 0 < e.2)
    (hnd : ((byPath id2Path hist).map Prod.fst).Nodup) (hsum : (hist.map Prod.snd).sum < 2 ^ 63) (q : List ℕ)
    (hq : q.length + 1 = L) (hw : 2 ≤ writesBelow (byPath id2Path hist) q) :
    ∃ S : Finset Zr, S.card ≤ F + 1 ∧ 0 ∈ S ∧ ∀ α ∉ S, (deviation F (byPath id2Path hist) q).eval α ≠ 0 := by
  have hs : ((byPath id2Path hist).map Prod.snd) = hist.map Prod.snd := by simp [byPath]
  obtain ⟨c, c1, c2, c3⟩ := (coeff_deviation F hF (byPath id2Path hist) (by
    intro e he
    obtain ⟨e', he', rfl⟩ := List.mem_map.1 he
    exact hn e' he') hnd q).2 hw
  have hne : deviation F (byPath id2Path hist) q ≠ 0 := by
    intro hc
    rw [hc, coeff_zero] at c3
    have hv := Pol.intToZr_val c1.le (by rw [hs] at c2; omega)
    rw [show intToZr c = (c : Zr) from rfl, ← c3, ZMod.val_zero] at hv
    omega
  refine ⟨(deviation F (byPath id2Path hist) q).roots.toFinset, ?_, ?_, ?_⟩
  · refine (Multiset.toFinset_card_le _).trans ((card_roots' _).trans ?_)
    exact natDegree_deviation F _ q (pathsBelow_le hids q hq)
  · rw [Multiset.mem_toFinset, mem_roots hne]
    unfold IsRoot deviation
    rw [eval_finsetSum]
    refine Finset.sum_eq_zero fun n _ => ?_
    split_ifs
    · simp [strayed]
    · simp
  · intro α hα h0
    apply hα
    rw [Multiset.mem_toFinset, mem_roots hne]
    exact h0

end PoL.Verkle
