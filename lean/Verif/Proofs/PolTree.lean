import Verif.Props.Verkle

/-! What `Get` finds along the path of an identifier. -/

set_option linter.unusedSectionVars false

namespace PoL.Pol
open Spec Verkle PP

variable {G1 G2 GT : Type} [AddCommGroup G1] [Module Zr G1] [AddCommGroup G2] [Module Zr G2]
  [AddCommGroup GT] [Module Zr GT] [DecidableEq G1] [DecidableEq GT]

theorem amountBelow_untouched (h : List (List ℕ × ℤ)) (q : List ℕ) (hq : ¬ touched h q) : amountBelow h q = 0 := by
  unfold amountBelow
  apply Finset.sum_eq_zero
  intro p hp
  rw [Finset.mem_filter, List.mem_toFinset] at hp
  obtain ⟨e, he, rfl⟩ := List.mem_map.1 hp.1
  exact absurd ⟨e, he, hp.2⟩ hq

theorem amountBelow_self {id2Path : Str → Option (List ℕ)} {F L : ℕ} {hist : List (Str × ℤ)}
    (hids : ValidIds id2Path F L hist) (p : List ℕ) (hp : p.length = L) :
    amountBelow (byPath id2Path hist) p = latest (byPath id2Path hist) p := by
  unfold amountBelow
  have key : ∀ p' ∈ ((byPath id2Path hist).map Prod.fst).toFinset, p <+: p' → p = p' := by
    intro p' hp' hpre
    exact hpre.eq_of_length (by rw [hp, (byPath_length hids p' hp').1])
  by_cases hm : p ∈ ((byPath id2Path hist).map Prod.fst).toFinset
  · rw [Finset.sum_eq_single p]
    · intro b hb hne
      rw [Finset.mem_filter] at hb
      exact absurd (key b hb.1 hb.2).symm hne
    · intro hc
      exact absurd (Finset.mem_filter.2 ⟨hm, List.prefix_rfl⟩) hc
  · rw [Finset.sum_eq_zero]
    · unfold latest
      have : ¬ (lastPut (byPath id2Path hist) p).isSome := by
        rw [lastPut_isSome]
        simpa using hm
      rw [Option.not_isSome_iff_eq_none.1 this]
      rfl
    · intro b hb
      rw [Finset.mem_filter] at hb
      rw [key b hb.1 hb.2] at hm
      exact absurd hb.1 hm

theorem latest_nonneg {h : List (List ℕ × ℤ)} (hn : ∀ e ∈ h, 0 ≤ e.2) (p : List ℕ) : 0 ≤ latest h p := by
  unfold latest lastPut
  cases hf : h.reverse.find? fun e => decide (e.1 = p) with
  | none => simp
  | some e =>
    have := List.mem_of_find?_eq_some hf
    simpa using hn e (by simpa using this)

theorem amountBelow_nonneg {h : List (List ℕ × ℤ)} (hn : ∀ e ∈ h, 0 ≤ e.2) (q : List ℕ) : 0 ≤ amountBelow h q :=
  Finset.sum_nonneg fun p _ => latest_nonneg hn p

theorem amountBelow_le_total {h : List (List ℕ × ℤ)} (hn : ∀ e ∈ h, 0 ≤ e.2) (q : List ℕ) :
    amountBelow h q ≤ totalAmount h :=
  Finset.sum_le_sum_of_subset_of_nonneg (Finset.filter_subset _ _) fun p _ _ => latest_nonneg hn p

theorem intToZr_val {n : ℤ} (h0 : 0 ≤ n) (h1 : n < 2 ^ 63) : (intToZr n).val = n.toNat := by
  obtain ⟨m, rfl⟩ := Int.eq_ofNat_of_zero_le h0
  unfold intToZr
  rw [Int.cast_natCast, ZMod.val_natCast_of_lt]
  · simp
  · refine lt_trans ?_ two_pow_63_lt_order
    exact_mod_cast h1

/-- `Values` in terms of the contents. -/
theorem valuesVec_eq (x : Verkle.Vertex G1) (F : ℕ) :
    x.valuesVec (F + 1) = ((List.range F).map fun j => (x.values (UInt16.ofNat j)).getD 0) ++ [x.sum] := by
  unfold Verkle.Vertex.valuesVec
  rw [List.range_succ, List.map_append]
  congr 1
  · apply List.map_congr_left
    intro j hj
    rw [List.mem_range] at hj
    rw [if_neg (by omega), intToZr_zero]
  · simp

/-- What is known of vertex number `i` on the path `p`. -/
structure OnPath (E : Curve G1 G2 GT) (α : Zr) (F L : ℕ) (h : List (List ℕ × ℤ)) (p : List ℕ)
    (vs : List (Verkle.Vertex G1)) (i : ℕ) (x : Verkle.Vertex G1) : Prop where
  values : x.valuesVec (F + 1) = ((List.range F).map fun j => intToZr (amountBelow h (p.take i ++ [j])))
    ++ [intToZr (amountBelow h (p.take i))]
  inner : i + 1 < L → x.V = com E α (x.valuesVec (F + 1) ++ [x.blindingFactor]) ∧
    x.W = some (com E α ((List.range (F + 2)).map fun j => (x.digests (UInt16.ofNat j)).getD 0)) ∧
    ∃ y, vs[i + 1]? = some y ∧ (x.digests (UInt16.ofNat (p.getD i 0))).getD 0 = dig E y
  leaf : i + 1 = L → x.W = none ∧
    (writesBelow h (p.take i) = 1 → x.V = com E α (x.valuesVec (F + 1) ++ [x.blindingFactor]))

theorem get_onPath {E : Curve G1 G2 GT} (hE : E.Lawful) {env : Env} (henv : env.Lawful) {α : Zr} {F : ℕ}
    {t t' : Tree G1 G2 GT} (ht : NewTree E α F t) {L : ℕ} (hL : 1 ≤ L) (hist : List (Str × ℤ)) {s s' : State}
    (hids : ValidIds t.id2Path F L hist) (h : t.puts E env hist s = some (t', s')) (id : Str) (p : List ℕ)
    (hp : t.id2Path id = some p) (hpL : p.length = L) (hw : p ∈ (byPath t.id2Path hist).map Prod.fst) :
    ∃ vs, t'.get E env id s'.db = some (some (latest (byPath t.id2Path hist) p, vs)) ∧ vs.length = L ∧
      ∀ i < L, ∃ x, vs[i]? = some x ∧ Verkle.Vertex.fromBytes E (s'.db (keyOf (p.take i))) = some x ∧
        OnPath E α F L (byPath t.id2Path hist) p vs i x := by
  obtain ⟨t1, s1, h1, h1t, -, hgood, -⟩ := puts_good hE henv α F ht.bound.le t ht.pp ht.fanOut ht.root L hL hist s hids
  rw [h, Option.some.injEq, Prod.mk.injEq] at h1
  obtain ⟨rfl, rfl⟩ := h1
  set hh := byPath t.id2Path hist with hhh
  have htp : ∀ i, touched hh (p.take i) := by
    intro i
    obtain ⟨e, he, rfl⟩ := List.mem_map.1 hw
    exact ⟨e, he, List.take_prefix i e.1⟩
  have hhe : hist ≠ [] := by
    rintro rfl
    simp [hhh, byPath] at hw
  obtain ⟨v, hv, hg⟩ := hgood hhe
  have hFb := ht.bound
  -- the vertices of the underlying tree
  have hfind : ∀ i, ∃ u, Sparse.find (p.take i) v = some u := by
    intro i
    obtain ⟨v', u, hv', hu⟩ := find_touched ht.root hids h _ (htp i)
    rw [hv, Option.some.injEq] at hv'
    subst hv'
    exact ⟨u, hu⟩
  obtain ⟨uL, huL⟩ := hfind L
  rw [← hpL, List.take_length] at huL
  obtain ⟨us, hget, husl⟩ := Sparse.getAt_eq p v uL huL
  have husi := (Sparse.getAt_some_iff p v _ us hget).2.2
  have hlast := leaf_data ht.root hids h p hpL
  rw [hv, Option.bind_some, huL, Option.map_some] at hlast
  have hsome : (lastPut hh p).isSome := (lastPut_isSome hh p).2 hw
  obtain ⟨n, hn⟩ := Option.isSome_iff_exists.1 hsome
  rw [hn, Option.map_some, Option.some.injEq] at hlast
  have hlat : latest hh p = n := by unfold latest; rw [hn]; rfl
  -- stored vertices
  have hstored : ∀ i < L, ∃ u x, us[i]? = some u ∧ Sparse.find (p.take i) v = some u ∧
      u.data = some (.key (keyOf (p.take i))) ∧ load E s'.db (keyOf (p.take i)) = some x ∧
      Good E α F (fun q => touches t.id2Path hist q ≤ 1) (L - i) (p.take i) u s'.db := by
    intro i hi
    obtain ⟨u, hu⟩ := hfind i
    have hgu := hg.find (p.take i) (by rw [List.length_take]; omega) u hu
    have hlen : L - (p.take i).length = (L - i - 1) + 1 := by rw [List.length_take]; omega
    rw [hlen, List.nil_append] at hgu
    obtain ⟨x, hx, -, -⟩ := hgu.stored
    refine ⟨u, x, by rw [husi i (by omega)]; exact hu, hu, hgu.2.1, hx, ?_⟩
    have : L - i = (L - i - 1) + 1 := by omega
    rw [this]
    exact hgu
  have : Nonempty (Sparse.Vertex Data) := ⟨v⟩
  have : Nonempty (Verkle.Vertex G1) := ⟨⟨0, fun _ => none, fun _ => none, 0, 0, none⟩⟩
  choose! fu fx hu1 hu2 hu3 hx hgd using hstored
  have hvs : us.mapM (fun u => do
      let key ← (← u.data).str
      Verkle.Vertex.fromBytes E (s'.db key)) = some ((List.range L).map fx) := by
    have : us = (List.range L).map fu := by
      apply List.ext_getElem?
      intro i
      by_cases hi : i < L
      · rw [hu1 i hi]; simp [hi]
      · rw [List.getElem?_eq_none (by omega), List.getElem?_eq_none (by simp; omega)]
    rw [this, List.mapM_map]
    apply mapM_some
    intro i hi
    rw [List.mem_range] at hi
    exact obind_step (hu3 i hi) (obind_step rfl (load_fromBytes (hx i hi)))
  refine ⟨(List.range L).map fx, ?_, by simp, ?_⟩
  · have hs : (t'.sparse E env).get id = some (some (uL.data, us)) := by
      unfold Sparse.Tree.get
      have : (t'.sparse E env).id2Path id = some p := by rw [h1t]; exact hp
      refine obind_step this ?_
      have hr : (t'.sparse E env).root = some v := hv
      rw [hr]
      dsimp only
      rw [hget]
      rfl
    unfold Tree.get
    refine obind_step hs ?_
    dsimp only
    refine obind_step hvs ?_
    rw [hlast, hlat]
    rfl
  · intro i hi
    refine ⟨fx i, by simp [hi], load_fromBytes (hx i hi), ?_⟩
    -- sums and values, from C39
    have hqlen : (p.take i).length = i := by rw [List.length_take]; omega
    obtain ⟨x, hx1, hx2, hx3, hx4⟩ := Props.C39_stored_sums hE henv ht hL hist hids h (p.take i) (by omega) (htp i)
    rw [load_fromBytes (hx i hi), Option.some.injEq] at hx1
    subst hx1
    have hvals : (fx i).valuesVec (F + 1) = ((List.range F).map fun j => intToZr (amountBelow hh (p.take i ++ [j])))
        ++ [intToZr (amountBelow hh (p.take i))] := by
      rw [valuesVec_eq, hx2]
      congr 1
      apply List.map_congr_left
      intro j hj
      rw [List.mem_range] at hj
      have hj16 : (UInt16.ofNat j).toNat = j := toNat_ofNat16 (by omega)
      by_cases hjt : touched hh (p.take i ++ [j])
      · have := hx3 (UInt16.ofNat j) (by rw [hj16]; exact hjt)
        rw [this, hj16]; rfl
      · have := hx4 (UInt16.ofNat j) (by rw [hj16]; exact hjt)
        rw [this, amountBelow_untouched hh _ hjt, intToZr_zero]; rfl
    have hvv : ∀ (vals : ℕ → Option Zr) (y : Verkle.Vertex G1), y.values = mapBelow F vals →
        y.sum = ∑ i ∈ Finset.range F, (vals i).getD 0 →
        valVec F vals y.blindingFactor = y.valuesVec (F + 1) ++ [y.blindingFactor] := by
      intro vals y hy hys
      rw [valuesVec_eq, hy, hys, List.append_assoc]
      unfold valVec
      congr 1
      apply List.map_congr_left
      intro j hj
      rw [List.mem_range] at hj
      rw [mapBelow_ofNat _ (by omega), if_pos hj]
    have hG := hgd i hi
    refine ⟨hvals, fun hiL => ?_, fun hiL => ?_⟩
    · obtain ⟨m, hm⟩ : ∃ m, L - i = m + 1 + 1 := ⟨L - i - 2, by omega⟩
      rw [hm] at hG
      obtain ⟨-, -, hch, -, h5⟩ := hG
      obtain ⟨bf, hl⟩ := h5 (by omega)
      rw [hx i hi, Option.some.injEq] at hl
      refine ⟨?_, ?_, fx (i + 1), by simp [hiL], ?_⟩
      · rw [← hvv (childVals F (m + 1) (fu i).desc) (fx i) (by rw [hl]; rfl) (by rw [hl]; rfl), hl]
        rfl
      · have : (List.range (F + 2)).map (fun j => ((fx i).digests (UInt16.ofNat j)).getD 0)
            = digVec F (childDigs E s'.db (p.take i) (fu i).desc) := by
          rw [hl]
          unfold digVec innerVertex
          dsimp only
          rw [List.range_succ, List.range_succ, List.map_append, List.map_append, List.append_assoc]
          congr 1
          · apply List.map_congr_left
            intro j hj
            rw [List.mem_range] at hj
            rw [mapBelow_ofNat _ (by omega), if_pos hj]
          · simp only [List.map_cons, List.map_nil, List.cons_append, List.nil_append]
            rw [mapBelow_ofNat _ (by omega), mapBelow_ofNat _ (by omega), if_neg (by omega), if_neg (by omega)]
            rfl
        rw [this, hl]
        rfl
      · have hiD : p.getD i 0 = p[i]'(by omega) := by
          rw [List.getD_eq_getElem?_getD, List.getElem?_eq_getElem (by omega)]; rfl
        have htk : p.take (i + 1) = p.take i ++ [p.getD i 0] := by
          rw [hiD, List.take_append_getElem (by omega)]
        obtain ⟨w, hw'⟩ := hfind (i + 1)
        rw [htk, Sparse.find_append, hu2 i hi, Option.bind_some, Sparse.find_cons] at hw'
        obtain ⟨w', hw', -⟩ := Option.bind_eq_some_iff.1 hw'
        have hlt := (hch _ _ hw').1
        rw [hl]
        unfold innerVertex
        dsimp only
        rw [mapBelow_ofNat _ (by omega), if_pos hlt]
        unfold childDigs
        rw [hw', ← htk, hx (i + 1) hiL]
        rfl
    · have hm : L - i = 0 + 1 := by omega
      rw [hm] at hG
      obtain ⟨-, -, hch, h4, -⟩ := hG
      obtain ⟨bf, V, hl, hV⟩ := h4 rfl
      rw [hx i hi, Option.some.injEq] at hl
      refine ⟨by rw [hl]; rfl, fun hone => ?_⟩
      have htouch : touches t.id2Path hist (p.take i) ≤ 1 := by
        rw [← hone, hhh]
        unfold touches writesBelow byPath
        rw [List.countP_map]
        apply List.countP_mono_left
        intro e he
        obtain ⟨p', hp', hpL', -⟩ := hids e he
        simp only [hp', Option.getD_some, decide_eq_true_eq, Function.comp]
        intro hd
        rw [← hd]
        exact List.dropLast_prefix p'
      rw [← hvv (childVals F 0 (fu i).desc) (fx i) (by rw [hl]; rfl) (by rw [hl]; rfl), hl]
      exact hV htouch

end PoL.Pol
