import Verif.Proofs.VerkleMore
import Verif.Proofs.PolTree
import Verif.Spec.Deviation
import Mathlib.Algebra.Polynomial.Eval.Degree

/-! The commitments over the leaves, exactly. -/

set_option linter.unusedSectionVars false

namespace PoL.Verkle
open PoL.PP Sparse Spec Polynomial

variable {G1 G2 GT : Type} [AddCommGroup G1] [Module Zr G1] [AddCommGroup G2] [Module Zr G2]
  [AddCommGroup GT] [Module Zr GT] [DecidableEq G1] [DecidableEq GT]

/-- A further write below a vertex over the leaves. -/
theorem put_leaf {E : Curve G1 G2 GT} (hE : E.Lawful) {env : Env} (henv : env.Lawful) {α : Zr} {F : ℕ}
    (hF : F + 2 ≤ 65536) {t t1 t2 : Tree G1 G2 GT} (hPP : t.PP = newPublicParams E α (F + 2))
    (hfan : t.fanOut = F) (hroot : t.root = none) {L : ℕ} (hL : 1 ≤ L) {hist : List (Str × ℤ)} {e : Str × ℤ}
    {s s1 s2 : State} (hids : ValidIds t.id2Path F L (hist ++ [e]))
    (h1 : t.puts E env hist s = some (t1, s1)) (h2 : t1.put E env e.1 e.2 s1 = some (t2, s2)) (q : List ℕ) (i : ℕ)
    (hp : t.id2Path e.1 = some (q ++ [i])) (htou : touched (byPath t.id2Path hist) q) (bf : Zr)
    (vals : ℕ → Option Zr) (V : G1) (hl : load E s1.db (keyOf q) = some (leafVertex F bf vals V)) :
    load E s2.db (keyOf q) = some (leafVertex F bf (Function.update vals i (some (intToZr e.2)))
      (rewrittenV E α F vals i (intToZr e.2) V)) := by
  have hids1 : ValidIds t.id2Path F L hist := fun e he => hids e (by simp [he])
  obtain ⟨p', hp', hpL, hlt⟩ := hids e (by simp)
  rw [hp, Option.some.injEq] at hp'
  subst hp'
  obtain ⟨t1', s1', g1, h1t, -, g3, -⟩ := puts_good hE henv α F hF t hPP hfan hroot L hL hist s hids1
  rw [h1, Option.some.injEq, Prod.mk.injEq] at g1
  obtain ⟨rfl, rfl⟩ := g1
  obtain ⟨v, u, hv, hu⟩ := find_touched hroot hids1 h1 q htou
  have hhe : hist ≠ [] := by
    rintro rfl
    obtain ⟨e, he, -⟩ := htou
    simp [byPath] at he
  obtain ⟨v', hv', hg⟩ := g3 hhe
  rw [hv, Option.some.injEq] at hv'
  subst hv'
  rw [List.length_append, List.length_singleton] at hpL
  have hgu := hg.find q (by omega) u hu
  rw [show L - q.length = 0 + 1 by omega, List.nil_append] at hgu
  obtain ⟨-, hud, -, -, -⟩ := hgu
  have hid : t1.id2Path = t.id2Path := by rw [h1t]
  have hf1 : t1.fanOut = F := by rw [h1t]; exact hfan
  have hp1 : t1.PP = newPublicParams E α (F + 2) := by rw [h1t]; exact hPP
  have hh1 := h1
  rw [vputs_sparse] at hh1
  obtain ⟨⟨ts, s3⟩, h3, h4'⟩ := Option.map_eq_some_iff.1 hh1
  simp only [Prod.mk.injEq] at h4'
  obtain ⟨h4', rfl⟩ := h4'
  have hkk := keysOk_puts (t0 := t.sparse E env) hroot _ _ _ h3
  have hrt : t1.root = ts.root := by rw [← h4']
  unfold Tree.put at h2
  obtain ⟨⟨t3, s4⟩, h5, h6⟩ := obind_elim h2
  simp only [Option.pure_def, Option.some.injEq, Prod.mk.injEq] at h6
  obtain ⟨-, rfl⟩ := h6
  obtain ⟨path, root', hp'', hput, -⟩ := put_some h5
  have : path = q ++ [i] := by
    have : t1.id2Path e.1 = some path := hp''
    rw [hid, hp] at this
    exact (Option.some.inj this).symm
  subst this
  have hput' : putAt F (updateInnerVertex E (newPublicParams E α (F + 2)) env) (some (.amount e.2)) (q ++ [i]) (keyOf [])
      v s3 = some (root', s4) := by
    have e1 : (t1.sparse E env).root.getD (.mk [] none []) = v := by
      have : (t1.sparse E env).root = t1.root := rfl
      rw [this, hv]; rfl
    rw [e1] at hput
    have hput2 : putAt t1.fanOut (updateInnerVertex E t1.PP env) (some (.amount e.2)) (q ++ [i]) (keyOf [])
      v s3 = some (root', s4) := hput
    rw [hf1, hp1] at hput2
    exact hput2
  have := putAt_leaf_old hE henv hF i hput' (hlt i (by simp)) (by
    have := hkk; rw [← hrt, hv] at this; simpa using this) ⟨u, hu, by rw [hud]; simp⟩ bf vals _ (by
      rw [List.nil_append]; exact hl)
  rw [List.nil_append] at this
  exact this

/-- The values of a vertex over the leaves. -/
def histVals (h : List (List ℕ × ℤ)) (q : List ℕ) : ℕ → Option Zr := fun j => (lastPut h (q ++ [j])).map intToZr

/-- The vertex over the leaves that is stored after a history. -/
theorem leaf_stored {E : Curve G1 G2 GT} (hE : E.Lawful) {env : Env} (henv : env.Lawful) {α : Zr} {F : ℕ}
    (hF : F + 2 ≤ 65536) {t t' : Tree G1 G2 GT} (hPP : t.PP = newPublicParams E α (F + 2)) (hfan : t.fanOut = F)
    (hroot : t.root = none) {L : ℕ} (hL : 1 ≤ L) {hist : List (Str × ℤ)} {s s' : State}
    (hids : ValidIds t.id2Path F L hist) (h : t.puts E env hist s = some (t', s')) (q : List ℕ)
    (hqL : q.length + 1 = L) (hq : touched (byPath t.id2Path hist) q) :
    ∃ bf V, load E s'.db (keyOf q) = some (leafVertex F bf (histVals (byPath t.id2Path hist) q) V) ∧
      (touches t.id2Path hist q ≤ 1 → V = com E α (valVec F (histVals (byPath t.id2Path hist) q) bf)) := by
  obtain ⟨t1, s1, h1, -, -, hgood, -⟩ := puts_good hE henv α F hF t hPP hfan hroot L hL hist s hids
  rw [h, Option.some.injEq, Prod.mk.injEq] at h1
  obtain ⟨rfl, rfl⟩ := h1
  obtain ⟨v, u, hv, hu⟩ := find_touched hroot hids h q hq
  have hhe : hist ≠ [] := by
    rintro rfl
    obtain ⟨e, he, -⟩ := hq
    simp [byPath] at he
  obtain ⟨v', hv', hg⟩ := hgood hhe
  rw [hv, Option.some.injEq] at hv'
  subst hv'
  have hgu := hg.find q (by omega) u hu
  rw [show L - q.length = 0 + 1 by omega, List.nil_append] at hgu
  obtain ⟨-, -, -, h4, -⟩ := hgu
  obtain ⟨bf, V, hl, hV⟩ := h4 rfl
  have hcv : childVals F 0 u.desc = histVals (byPath t.id2Path hist) q := by
    funext j
    have hfj : Sparse.find (q ++ [j]) v = descGet u.desc j := by
      rw [Sparse.find_append, hu, Option.bind_some, Sparse.find_cons]
      cases descGet u.desc j <;> rfl
    have hld := leaf_data hroot hids h (q ++ [j]) (by simp; omega)
    rw [hv, Option.bind_some, hfj] at hld
    unfold childVals histVals
    cases hl1 : lastPut (byPath t.id2Path hist) (q ++ [j]) with
    | none =>
      rw [hl1, Option.map_none, Option.map_eq_none_iff] at hld
      rw [hld]; rfl
    | some b =>
      rw [hl1] at hld
      cases hd : descGet u.desc j with
      | none => rw [hd] at hld; simp at hld
      | some w =>
        rw [hd, Option.map_some, Option.map_some, Option.some.injEq] at hld
        simp [total, hld]
  rw [hcv] at hl hV
  exact ⟨bf, V, hl, hV⟩

theorem histVals_sum {id2Path : Str → Option (List ℕ)} {F L : ℕ} {hist : List (Str × ℤ)}
    (hids : ValidIds id2Path F L hist) (q : List ℕ) (hq : q.length + 1 = L) :
    ∑ j ∈ Finset.range F, (histVals (byPath id2Path hist) q j).getD 0
      = intToZr (amountBelow (byPath id2Path hist) q) := by
  rw [amountBelow_split hids q (by omega)]
  unfold intToZr
  rw [Int.cast_sum]
  refine Finset.sum_congr rfl fun j _ => ?_
  rw [Pol.amountBelow_self hids (q ++ [j]) (by simp; omega)]
  unfold histVals latest
  cases lastPut (byPath id2Path hist) (q ++ [j]) <;> simp [intToZr]

theorem histVals_count {id2Path : Str → Option (List ℕ)} {F L : ℕ} {hist : List (Str × ℤ)}
    (hids : ValidIds id2Path F L hist) (q : List ℕ) (hq : q.length + 1 = L) :
    (List.range F).countP (fun j => (histVals (byPath id2Path hist) q j).isSome)
      = pathsBelow (byPath id2Path hist) q := by
  rw [List.countP_eq_length_filter]
  have h1 : ((List.range F).filter fun j => (histVals (byPath id2Path hist) q j).isSome).Nodup :=
    List.nodup_range.filter _
  rw [← List.toFinset_card_of_nodup h1]
  unfold pathsBelow
  apply Finset.card_bij (fun j _ => q ++ [j])
  · intro j hj
    rw [List.mem_toFinset, List.mem_filter] at hj
    rw [Finset.mem_filter]
    refine ⟨?_, List.prefix_append _ _⟩
    have := hj.2
    unfold histVals at this
    rw [Option.isSome_map] at this
    rw [List.mem_toFinset, ← lastPut_isSome]
    exact this
  · intro a _ b _ hab
    simpa using hab
  · intro p hp
    rw [Finset.mem_filter] at hp
    obtain ⟨hl, hlt⟩ := byPath_length hids p hp.1
    obtain ⟨r, rfl⟩ := hp.2
    rw [List.length_append] at hl
    obtain ⟨x, rfl⟩ := List.length_eq_one_iff.1 (show r.length = 1 by omega)
    refine ⟨x, ?_, rfl⟩
    rw [List.mem_toFinset, List.mem_filter, List.mem_range]
    refine ⟨hlt x (by simp), ?_⟩
    unfold histVals
    rw [Option.isSome_map]
    exact (lastPut_isSome _ _).2 (List.mem_toFinset.1 hp.1)

theorem histVals_concat (h : List (List ℕ × ℤ)) (q : List ℕ) (i : ℕ) (b : ℤ) :
    histVals (h ++ [(q ++ [i], b)]) q = Function.update (histVals h q) i (some (intToZr b)) := by
  funext j
  unfold histVals
  rw [lastPut_concat]
  by_cases hj : j = i
  · subst hj; simp
  · rw [Function.update_of_ne hj, if_neg (by simpa using Ne.symm hj)]

/-- A step of `updateLayerAboveLeaves` in terms of the history. -/
theorem rewrittenV_hist (E : Curve G1 G2 GT) (α : Zr) {F L : ℕ} {id2Path : Str → Option (List ℕ)}
    {hist : List (Str × ℤ)} {e : Str × ℤ} (hids : ValidIds id2Path F L (hist ++ [e])) (q : List ℕ) (i : ℕ)
    (hp : id2Path e.1 = some (q ++ [i])) (bf d : Zr) :
    rewrittenV E α F (histVals (byPath id2Path hist) q) i (intToZr e.2)
        (com E α (valVec F (histVals (byPath id2Path hist) q) bf) + d • E.genG1)
      = com E α (valVec F (histVals (byPath id2Path (hist ++ [e])) q) bf)
        + (d + (strayed F (byPath id2Path hist) (byPath id2Path (hist ++ [e])) q).eval α) • E.genG1 := by
  have hids1 : ValidIds id2Path F L hist := fun e he => hids e (by simp [he])
  obtain ⟨p', hp', hpL, hlt⟩ := hids e (by simp)
  rw [hp, Option.some.injEq] at hp'
  subst hp'
  rw [List.length_append, List.length_singleton] at hpL
  have hi : i < F := hlt i (by simp)
  have hb : byPath id2Path (hist ++ [e]) = byPath id2Path hist ++ [(q ++ [i], e.2)] := by simp [byPath, hp]
  have hS := histVals_sum hids q hpL
  have hS0 := histVals_sum hids1 q hpL
  have hK := histVals_count hids q hpL
  have hupd : Function.update (histVals (byPath id2Path hist) q) i (some (intToZr e.2))
      = histVals (byPath id2Path (hist ++ [e])) q := by rw [hb, histVals_concat]
  unfold rewrittenV
  dsimp only
  rw [hupd, hS, hK]
  set k := pathsBelow (byPath id2Path (hist ++ [e])) q with hk
  have hkF : k ≤ F := by
    rw [← hK]
    exact (List.countP_le_length).trans (by simp)
  have hm : (((List.range (F + 2)).map fun j => if j < F then (histVals (byPath id2Path hist) q j).getD 0 else 0) ++
      [intToZr (amountBelow (byPath id2Path (hist ++ [e])) q)]).getD k 0
      = intToZr (latest (byPath id2Path hist) (q ++ [k])) := by
    rw [List.getD_eq_getElem?_getD, List.getElem?_append_left (by simp; omega), List.getElem?_map,
      List.getElem?_range (by omega), Option.map_some, Option.getD_some]
    unfold histVals latest
    split_ifs with hkF'
    · cases lastPut (byPath id2Path hist) (q ++ [k]) <;> simp [intToZr]
    · cases hl : lastPut (byPath id2Path hist) (q ++ [k]) with
      | none => simp [intToZr]
      | some b =>
        exfalso
        have hmem := (lastPut_isSome (byPath id2Path hist) (q ++ [k])).1 (by rw [hl]; rfl)
        have := (byPath_length hids1 _ (List.mem_toFinset.2 hmem)).2 k (by simp)
        omega
  rw [hm]
  have hsum : ∑ j ∈ Finset.range F, (histVals (byPath id2Path (hist ++ [e])) q j).getD 0 * α ^ (j + 1)
      = (∑ j ∈ Finset.range F, (histVals (byPath id2Path hist) q j).getD 0 * α ^ (j + 1))
        + (intToZr e.2 - (histVals (byPath id2Path hist) q i).getD 0) * α ^ (i + 1) := by
    rw [← hupd, ← Finset.sum_erase_add _ _ (Finset.mem_range.2 hi),
      ← Finset.sum_erase_add (Finset.range F) (fun j => (histVals (byPath id2Path hist) q j).getD 0 * α ^ (j + 1))
        (Finset.mem_range.2 hi), Function.update_self]
    have : ∑ x ∈ (Finset.range F).erase i,
        (Function.update (histVals (byPath id2Path hist) q) i (some (intToZr e.2)) x).getD 0 * α ^ (x + 1)
        = ∑ x ∈ (Finset.range F).erase i, (histVals (byPath id2Path hist) q x).getD 0 * α ^ (x + 1) := by
      refine Finset.sum_congr rfl fun x hx => ?_
      rw [Function.update_of_ne (Finset.ne_of_mem_erase hx)]
    rw [this, Option.getD_some]
    ring
  unfold com
  rw [expo_valVec, expo_valVec, hS, hS0, hsum]
  unfold strayed
  rw [← hk]
  simp only [eval_sub, eval_mul, eval_C, eval_pow, eval_X, Int.cast_sub]
  simp only [intToZr, smul_smul, ← add_smul]
  congr 1
  ring

/-- The deviation after one more write. -/
theorem deviation_concat (F : ℕ) (h : List (List ℕ × ℤ)) (e : List ℕ × ℤ) (q : List ℕ) :
    deviation F (h ++ [e]) q = deviation F h q + if (∃ e ∈ h, q <+: e.1) ∧ q <+: e.1 then strayed F h (h ++ [e]) q else 0 := by
  unfold deviation
  rw [List.length_append, List.length_singleton, Finset.sum_range_succ]
  congr 1
  · refine Finset.sum_congr rfl fun n hn => ?_
    rw [Finset.mem_range] at hn
    rw [List.take_append_of_le_length hn.le, List.take_append_of_le_length (by omega), List.getElem?_append_left hn]
  · rw [List.take_append_of_le_length le_rfl, List.take_length]
    rw [show h.length + 1 = (h ++ [e]).length by simp, List.take_length]
    have : (∃ e', (h ++ [e])[h.length]? = some e' ∧ q <+: e'.1) ↔ q <+: e.1 := by simp
    simp only [this]

/-- After any history, the commitment stored for a vertex over the leaves. -/
theorem leaf_exact {E : Curve G1 G2 GT} (hE : E.Lawful) {env : Env} (henv : env.Lawful) {α : Zr} {F : ℕ}
    (hF : F + 2 ≤ 65536) {t t' : Tree G1 G2 GT} (hPP : t.PP = newPublicParams E α (F + 2)) (hfan : t.fanOut = F)
    (hroot : t.root = none) {L : ℕ} (hL : 1 ≤ L) {hist : List (Str × ℤ)} {s s' : State}
    (hids : ValidIds t.id2Path F L hist) (h : t.puts E env hist s = some (t', s')) (q : List ℕ)
    (hqL : q.length + 1 = L) (hq : touched (byPath t.id2Path hist) q) :
    ∃ bf, load E s'.db (keyOf q) = some (leafVertex F bf (histVals (byPath t.id2Path hist) q)
      (com E α (valVec F (histVals (byPath t.id2Path hist) q) bf)
        + (deviation F (byPath t.id2Path hist) q).eval α • E.genG1)) := by
  induction hist using List.reverseRecOn generalizing t' s' with
  | nil =>
    obtain ⟨e, he, -⟩ := hq
    simp [byPath] at he
  | append_singleton hist e ih =>
    have hfull := h
    rw [vputs_concat] at h
    obtain ⟨⟨t1, s1⟩, h1, h2⟩ := Option.bind_eq_some_iff.1 h
    have hids1 : ValidIds t.id2Path F L hist := fun e he => hids e (by simp [he])
    obtain ⟨p, hp, hpL, hlt⟩ := hids e (by simp)
    have hb : byPath t.id2Path (hist ++ [e]) = byPath t.id2Path hist ++ [(p, e.2)] := by simp [byPath, hp]
    rw [hb, deviation_concat]
    by_cases hpre : q <+: p
    · obtain ⟨r, hr⟩ := id hpre
      obtain ⟨i, rfl⟩ : ∃ i, r = [i] := by
        apply List.length_eq_one_iff.1
        have := congrArg List.length hr
        rw [List.length_append] at this
        omega
      by_cases ht1 : touched (byPath t.id2Path hist) q
      · rw [if_pos ⟨ht1, hpre⟩]
        obtain ⟨bf, hl⟩ := ih hids1 h1 ht1
        have := put_leaf hE henv hF hPP hfan hroot hL hids h1 h2 q i (by rw [hp, hr]) ht1 bf _ _ hl
        rw [rewrittenV_hist E α hids q i (by rw [hp, hr]), ← histVals_concat, hb, hr] at this
        exact ⟨bf, by rw [this, eval_add]⟩
      · rw [if_neg (fun hc => ht1 hc.1), add_zero]
        obtain ⟨bf, V, hl, hV⟩ := leaf_stored hE henv hF hPP hfan hroot hL hids hfull q hqL hq
        have h0 : touches t.id2Path hist q = 0 := by
          unfold touches
          rw [List.countP_eq_zero]
          intro a ha hc
          rw [decide_eq_true_eq] at hc
          obtain ⟨p', hp', -⟩ := hids1 a ha
          rw [hp', Option.getD_some] at hc
          exact ht1 ⟨((t.id2Path a.1).getD [], a.2), List.mem_map.2 ⟨a, ha, rfl⟩, by
            rw [hp', Option.getD_some, ← hc]; exact List.dropLast_prefix p'⟩
        have h01 : touches t.id2Path (hist ++ [e]) q ≤ 1 := by
          have : touches t.id2Path (hist ++ [e]) q = touches t.id2Path hist q + touches t.id2Path [e] q := by
            unfold touches; rw [List.countP_append]
          rw [this, h0, zero_add]
          exact (List.countP_le_length).trans (by simp)
        have hd : deviation F (byPath t.id2Path hist) q = 0 := by
          unfold deviation
          refine Finset.sum_eq_zero fun n _ => if_neg ?_
          rintro ⟨⟨a, ha, hqa⟩, -⟩
          exact ht1 ⟨a, List.mem_of_mem_take ha, hqa⟩
        rw [hV h01] at hl
        rw [hb] at hl
        exact ⟨bf, by rw [hl, hd]; simp⟩
    · rw [if_neg (fun hc => hpre hc.2), add_zero]
      have ht1 : touched (byPath t.id2Path hist) q := by
        obtain ⟨a, ha, hqa⟩ := hq
        rw [hb, List.mem_append, List.mem_singleton] at ha
        rcases ha with ha | rfl
        · exact ⟨a, ha, hqa⟩
        · exact absurd hqa hpre
      obtain ⟨bf, hl⟩ := ih hids1 h1 ht1
      have hdb := put_footprint hE henv hroot (e := e) h1 h2 p hp (keyOf q)
        (fun r hr _ hc => hpre (by rw [keyOf_injective hc]; exact hr))
      have hv : histVals (byPath t.id2Path hist ++ [(p, e.2)]) q = histVals (byPath t.id2Path hist) q := by
        funext j
        unfold histVals
        rw [lastPut_concat, if_neg]
        rintro rfl
        exact hpre (List.prefix_append _ _)
      exact ⟨bf, by rw [load_congr E hdb, hl, hv]⟩

end PoL.Verkle
