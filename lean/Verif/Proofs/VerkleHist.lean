import Verif.Proofs.VerkleTree
import Verif.Spec.Liabilities

/-! Histories of writes to the Verkle tree. -/

set_option linter.unusedSectionVars false

namespace PoL.Verkle
open PoL.PP Sparse Spec

variable {G1 G2 GT : Type} [AddCommGroup G1] [Module Zr G1] [AddCommGroup G2] [Module Zr G2]
  [AddCommGroup GT] [Module Zr GT] [DecidableEq G1] [DecidableEq GT]

theorem vputs_nil (E : Curve G1 G2 GT) (env : Env) (t : Tree G1 G2 GT) (s : State) :
    t.puts E env [] s = some (t, s) := rfl

theorem vputs_concat (E : Curve G1 G2 GT) (env : Env) (t : Tree G1 G2 GT) (hist : List (Str × ℤ))
    (e : Str × ℤ) (s : State) :
    t.puts E env (hist ++ [e]) s = (t.puts E env hist s).bind fun ts => ts.1.put E env e.1 e.2 ts.2 := by
  unfold Tree.puts
  rw [List.foldlM_append]
  simp

/-- The history as seen by the generic tree. -/
def dataHist (hist : List (Str × ℤ)) : List (Str × Option Data) := hist.map fun e => (e.1, some (.amount e.2))

/-- A sequence of writes is a sequence of writes to the generic tree. -/
theorem vputs_sparse (E : Curve G1 G2 GT) (env : Env) (t : Tree G1 G2 GT) (hist : List (Str × ℤ)) (s : State) :
    t.puts E env hist s
      = ((t.sparse E env).puts (dataHist hist) s).map fun ts => ({ t with root := ts.1.root }, ts.2) := by
  induction hist using List.reverseRecOn with
  | nil => rfl
  | append_singleton hist e ih =>
    rw [vputs_concat, ih]
    have : dataHist (hist ++ [e]) = dataHist hist ++ [(e.1, some (.amount e.2))] := by simp [dataHist]
    rw [this, puts_concat]
    cases hr : (t.sparse E env).puts (dataHist hist) s with
    | none => rfl
    | some ts =>
      obtain ⟨t1, s1⟩ := ts
      obtain ⟨h1, h2, h3⟩ := puts_fields _ _ _ hr
      simp only [Option.map_some, Option.bind_some]
      unfold Tree.put
      have hs : ({ t with root := t1.root } : Tree G1 G2 GT).sparse E env = t1 := by
        cases t1
        simp only at h1 h2 h3
        subst h1 h2 h3
        rfl
      rw [hs]
      simp only [Option.bind_eq_bind, Option.pure_def]
      cases t1.put e.1 (some (.amount e.2)) s1 with
      | none => rfl
      | some ts' => rfl

/-- A write in terms of `putAt`. -/
theorem vput_eq {E : Curve G1 G2 GT} {env : Env} {t : Tree G1 G2 GT} {id : Str} {n : ℤ} {s s' : State}
    {path : List ℕ} {root' : Sparse.Vertex Data} (hp : t.id2Path id = some path)
    (h : putAt t.fanOut (updateInnerVertex E t.PP env) (some (.amount n)) path []
      (t.root.getD (.mk [] none [])) s = some (root', s')) :
    t.put E env id n s = some ({ t with root := some root' }, s') := by
  have : (t.sparse E env).put id (some (.amount n)) s = some ({ t.sparse E env with root := some root' }, s') := by
    unfold Sparse.Tree.put
    exact obind_step hp (obind_step h rfl)
  unfold Tree.put
  refine obind_step this ?_
  rfl

/-- How often a vertex over the leaves was touched. -/
def touches (id2Path : Str → Option (List ℕ)) (hist : List (Str × ℤ)) (q : List ℕ) : ℕ :=
  hist.countP fun e => decide (((id2Path e.1).getD []).dropLast = q)

theorem dropLast_of_prefix {q p : List ℕ} (h : q <+: p) (hl : q.length + 1 = p.length) : q = p.dropLast := by
  obtain ⟨r, rfl⟩ := h
  rw [List.length_append] at hl
  obtain ⟨x, rfl⟩ := List.length_eq_one_iff.1 (show r.length = 1 by omega)
  rw [List.dropLast_concat]

/-- Writes with valid identifiers return, and the invariant holds afterwards. -/
theorem puts_good {E : Curve G1 G2 GT} (hE : E.Lawful) {env : Env} (henv : env.Lawful) (α : Zr) (F : ℕ)
    (hF : F + 2 ≤ 65536) (t : Tree G1 G2 GT) (hPP : t.PP = newPublicParams E α (F + 2)) (hfan : t.fanOut = F)
    (hroot : t.root = none) (L : ℕ) (hL : 1 ≤ L) (hist : List (Str × ℤ)) (s : State)
    (hids : ValidIds t.id2Path F L hist) :
    ∃ t' s', t.puts E env hist s = some (t', s') ∧ t' = { t with root := t'.root } ∧
      (hist = [] → t'.root = none) ∧
      (hist ≠ [] → ∃ v, t'.root = some v ∧
        Good E α F (fun q => touches t.id2Path hist q ≤ 1) L [] v s'.db) ∧
      (∀ v, t'.root = some v → ∀ q u, q.length + 1 = L → Sparse.find q v = some u → 1 ≤ touches t.id2Path hist q) := by
  induction hist using List.reverseRecOn with
  | nil =>
    exact ⟨t, s, rfl, rfl, fun _ => hroot, fun h => absurd rfl h, by rw [hroot]; intro v hv; simp at hv⟩
  | append_singleton hist e ih =>
    obtain ⟨t1, s1, h1, h2, h3, h4, h5⟩ := ih (fun e he => hids e (by simp [he]))
    obtain ⟨p, hp, hpL, hpF⟩ := hids e (by simp)
    have hpne : p ≠ [] := by rintro rfl; simp at hpL; omega
    have hid : t1.id2Path = t.id2Path := by rw [h2]
    have htou : ∀ q, touches t.id2Path (hist ++ [e]) q
        = touches t.id2Path hist q + if p.dropLast = q then 1 else 0 := by
      intro q
      unfold touches
      rw [List.countP_append]
      congr 1
      simp only [List.countP_cons, List.countP_nil, hp, Option.getD_some, decide_eq_true_eq]
      split_ifs <;> rfl
    obtain ⟨v', s', hput, hgood, -⟩ := putAt_good hE henv α F hF (fun q => touches t.id2Path hist q ≤ 1)
      (fun q => touches t.id2Path (hist ++ [e]) q ≤ 1) e.2 p hpF [] (t1.root.getD (.mk [] none [])) s1
      (by
        by_cases hh : hist = []
        · left; rw [h3 hh]; rfl
        · right
          obtain ⟨v, hv, hg⟩ := h4 hh
          rw [hv, Option.getD_some, hpL]
          exact hg)
      (by
        intro _ r hr
        rw [List.nil_append] at hr ⊢
        rw [htou] at hr
        by_cases hc : r = p.dropLast
        · right
          refine ⟨hc, fun u hu => ?_⟩
          rw [if_pos hc.symm] at hr
          have hr0 : touches t.id2Path hist r = 0 := by omega
          cases hrt : t1.root with
          | none =>
            rw [hrt, Option.getD_none] at hu
            cases r with
            | nil => rw [find_nil, Option.some.injEq] at hu; rw [← hu]; rfl
            | cons a b => rw [find_fresh _ _ (by simp)] at hu; simp at hu
          | some v =>
            rw [hrt, Option.getD_some] at hu
            have := h5 v hrt r u (by rw [hc, List.length_dropLast]; omega) hu
            omega
        · left
          rw [if_neg (Ne.symm hc)] at hr
          exact ⟨hc, by omega⟩)
    have hput' := hput
    have e1 : t1.PP = newPublicParams E α (F + 2) := by rw [h2]; exact hPP
    have e2 : t1.fanOut = F := by rw [h2]; exact hfan
    rw [← e1] at hput
    rw [hpL] at hgood
    have hput := vput_eq (t := t1) (id := e.1) (by rw [hid]; exact hp) (by rw [e2]; exact hput)
    refine ⟨{ t1 with root := some v' }, s', ?_, ?_, by simp, fun _ => ⟨v', rfl, hgood⟩, ?_⟩
    · rw [vputs_concat, h1, Option.bind_some]
      exact hput
    · rw [h2]
    · intro v hv q u hq hu
      rw [htou]
      simp only [Option.some.injEq] at hv
      subst hv
      by_cases hc : p.dropLast = q
      · rw [if_pos hc]; omega
      · have hnp : ¬ q <+: p := fun h => hc (dropLast_of_prefix h (by omega)).symm
        have hoff := find_putAt_off hput' q hnp
        rw [hu] at hoff
        have hne : q ≠ [] := by rintro rfl; exact hnp List.nil_prefix
        cases hrt : t1.root with
        | none => rw [hrt, Option.getD_none, find_fresh _ _ hne] at hoff; simp at hoff
        | some w =>
          rw [hrt, Option.getD_some] at hoff
          cases hfw : Sparse.find q w with
          | none => rw [hfw] at hoff; simp at hoff
          | some u' =>
            have := h5 w hrt q u' hq hfw
            omega

/-! ## Amounts -/

theorem lastPut_map_some {K K' V V' : Type} [DecidableEq K] [DecidableEq K'] (f : K → K') (g : V → V')
    (hf : Function.Injective f) (h : List (K × V)) (k : K) :
    lastPut (h.map fun e => (f e.1, g e.2)) (f k) = (lastPut h k).map g := by
  induction h using List.reverseRecOn with
  | nil => rfl
  | append_singleton h e ih =>
    rw [List.map_append, List.map_singleton, lastPut_concat, lastPut_concat, ih]
    by_cases he : e.1 = k
    · simp [he]
    · rw [if_neg he, if_neg (fun hc => he (hf hc))]

theorem lastPut_isSome {K V : Type} [DecidableEq K] (h : List (K × V)) (k : K) :
    (lastPut h k).isSome ↔ k ∈ h.map Prod.fst := by
  induction h using List.reverseRecOn with
  | nil => simp [lastPut]
  | append_singleton h e ih =>
    rw [lastPut_concat]
    by_cases he : e.1 = k
    · simp [he]
    · rw [if_neg he, ih]
      simp [Ne.symm he]

/-- The data at a path of full length. -/
theorem leaf_data {E : Curve G1 G2 GT} {env : Env} {t t' : Tree G1 G2 GT} (hroot : t.root = none) {F L : ℕ}
    {hist : List (Str × ℤ)} {s s' : State} (hids : ValidIds t.id2Path F L hist)
    (h : t.puts E env hist s = some (t', s')) (q : List ℕ) (hq : q.length = L) :
    (t'.root.bind (Sparse.find q)).map Sparse.Vertex.data
      = (lastPut (byPath t.id2Path hist) q).map fun n => some (.amount n) := by
  rw [vputs_sparse] at h
  obtain ⟨⟨ts, s1⟩, h1, h2⟩ := Option.map_eq_some_iff.1 h
  simp only [Prod.mk.injEq] at h2
  obtain ⟨rfl, rfl⟩ := h2
  have := puts_data (t0 := t.sparse E env) hroot q _ _ _ h1 (by
    intro e he p hp hpre
    obtain ⟨e', he', rfl⟩ := List.mem_map.1 he
    obtain ⟨p', hp', hl, -⟩ := hids e' he'
    have : p' = p := Option.some.inj (hp'.symm.trans hp)
    subst this
    exact hpre.eq_of_length (by omega))
  dsimp only
  rw [this]
  have e : ((dataHist hist).map fun e => ((t.sparse E env).id2Path e.1, e.2))
      = (byPath t.id2Path hist).map fun e => (some e.1, some (Data.amount e.2)) := by
    unfold dataHist byPath
    rw [List.map_map, List.map_map]
    apply List.map_congr_left
    intro e he
    obtain ⟨p', hp', -⟩ := hids e he
    have hp'' : (t.sparse E env).id2Path e.1 = some p' := hp'
    simp [hp', hp'']
  rw [e]
  exact lastPut_map_some some (fun n => some (Data.amount n)) (Option.some_injective _) _ q

theorem byPath_length {id2Path : Str → Option (List ℕ)} {F L : ℕ} {hist : List (Str × ℤ)}
    (hids : ValidIds id2Path F L hist) (p : List ℕ) (hp : p ∈ ((byPath id2Path hist).map Prod.fst).toFinset) :
    p.length = L ∧ ∀ x ∈ p, x < F := by
  rw [List.mem_toFinset] at hp
  obtain ⟨e, he, rfl⟩ := List.mem_map.1 hp
  obtain ⟨e', he', rfl⟩ := List.mem_map.1 he
  obtain ⟨p', hp', h1, h2⟩ := hids e' he'
  simp only [hp', Option.getD_some]
  exact ⟨h1, h2⟩

/-- Splitting by the next component. -/
theorem amountBelow_split {id2Path : Str → Option (List ℕ)} {F L : ℕ} {hist : List (Str × ℤ)}
    (hids : ValidIds id2Path F L hist) (q : List ℕ) (hq : q.length < L) :
    amountBelow (byPath id2Path hist) q
      = ∑ i ∈ Finset.range F, amountBelow (byPath id2Path hist) (q ++ [i]) := by
  unfold amountBelow
  rw [← Finset.sum_fiberwise_of_maps_to (t := Finset.range F) (g := fun p => p.getD q.length 0)]
  · refine Finset.sum_congr rfl fun i _ => ?_
    refine Finset.sum_congr ?_ fun _ _ => rfl
    ext p
    simp only [Finset.mem_filter]
    constructor
    · rintro ⟨⟨h1, h2⟩, h3⟩
      refine ⟨h1, ?_⟩
      have hl := (byPath_length hids p h1).1
      obtain ⟨r, rfl⟩ := h2
      cases r with
      | nil => simp at hl; omega
      | cons a r =>
        rw [List.getD_eq_getElem?_getD, List.getElem?_append_right le_rfl] at h3
        simp at h3
        subst h3
        exact ⟨r, by simp⟩
    · rintro ⟨h1, r, rfl⟩
      refine ⟨⟨h1, ⟨[i] ++ r, by simp⟩⟩, ?_⟩
      rw [List.getD_eq_getElem?_getD, List.append_assoc, List.getElem?_append_right le_rfl]
      simp
  · intro p hp
    rw [Finset.mem_filter] at hp
    obtain ⟨hl, hlt⟩ := byPath_length hids p hp.1
    rw [Finset.mem_range, List.getD_eq_getElem?_getD, List.getElem?_eq_getElem (by omega)]
    exact hlt _ (List.getElem_mem _)

/-- The sum of the leaves below a vertex is the amount below it. -/
theorem total_eq {E : Curve G1 G2 GT} {env : Env} {t t' : Tree G1 G2 GT} (hroot : t.root = none) {F L : ℕ}
    {hist : List (Str × ℤ)} {s s' : State} (hids : ValidIds t.id2Path F L hist)
    (h : t.puts E env hist s = some (t', s')) (v : Sparse.Vertex Data) (hv : t'.root = some v) (n : ℕ)
    (q : List ℕ) (hq : q.length + n = L) (u : Sparse.Vertex Data) (hu : Sparse.find q v = some u) :
    total F n u = amountBelow (byPath t.id2Path hist) q := by
  induction n generalizing q u with
  | zero =>
    have hd := leaf_data hroot hids h q (by omega)
    rw [hv, Option.bind_some, hu, Option.map_some] at hd
    cases hl : lastPut (byPath t.id2Path hist) q with
    | none => rw [hl] at hd; simp at hd
    | some b =>
      rw [hl, Option.map_some, Option.some.injEq] at hd
      have hmem : q ∈ ((byPath t.id2Path hist).map Prod.fst).toFinset := by
        rw [List.mem_toFinset, ← lastPut_isSome, hl]; rfl
      have hf : ((byPath t.id2Path hist).map Prod.fst).toFinset.filter (fun p => q <+: p) = {q} := by
        ext p
        rw [Finset.mem_filter, Finset.mem_singleton]
        constructor
        · rintro ⟨h1, h2⟩
          exact (h2.eq_of_length (by rw [(byPath_length hids p h1).1]; omega)).symm
        · rintro rfl; exact ⟨hmem, List.prefix_rfl⟩
      unfold amountBelow
      rw [hf, Finset.sum_singleton, latest, hl, total, hd]
      rfl
  | succ n ih =>
    rw [amountBelow_split hids q (by omega), total]
    refine Finset.sum_congr rfl fun i _ => ?_
    cases hd : descGet u.desc i with
    | some w =>
      rw [Option.map_some, Option.getD_some]
      refine ih (q ++ [i]) (by simp; omega) w ?_
      rw [find_append, hu, Option.bind_some, find_cons, hd]
      rfl
    | none =>
      rw [Option.map_none, Option.getD_none]
      symm
      unfold amountBelow
      rw [Finset.filter_eq_empty_iff.2, Finset.sum_empty]
      intro p hp hpre
      obtain ⟨r, rfl⟩ := hpre
      have hl := (byPath_length hids _ hp).1
      have hd2 := leaf_data hroot hids h _ hl
      have hs : (lastPut (byPath t.id2Path hist) (q ++ [i] ++ r)).isSome := by
        rw [lastPut_isSome]; exact List.mem_toFinset.1 hp
      obtain ⟨b, hb⟩ := Option.isSome_iff_exists.1 hs
      rw [hb, hv, Option.bind_some, find_append, find_append, hu, Option.bind_some, find_cons, hd] at hd2
      simp at hd2

/-- A vertex is there if a write has passed it. -/
theorem find_touched {E : Curve G1 G2 GT} {env : Env} {t t' : Tree G1 G2 GT} (hroot : t.root = none) {F L : ℕ}
    {hist : List (Str × ℤ)} {s s' : State} (hids : ValidIds t.id2Path F L hist)
    (h : t.puts E env hist s = some (t', s')) (q : List ℕ) (hq : touched (byPath t.id2Path hist) q) :
    ∃ v u, t'.root = some v ∧ Sparse.find q v = some u := by
  obtain ⟨e, he, r, hr⟩ := hq
  have hmem : e.1 ∈ (byPath t.id2Path hist).map Prod.fst := List.mem_map.2 ⟨e, he, rfl⟩
  have hl := (byPath_length hids _ (List.mem_toFinset.2 hmem)).1
  have hd := leaf_data hroot hids h _ hl
  obtain ⟨b, hb⟩ := Option.isSome_iff_exists.1 ((lastPut_isSome _ _).2 hmem)
  rw [hb, ← hr] at hd
  cases hv : t'.root with
  | none => rw [hv] at hd; simp at hd
  | some v =>
    rw [hv, Option.bind_some, find_append] at hd
    cases hf : Sparse.find q v with
    | none => rw [hf] at hd; simp at hd
    | some u => exact ⟨v, u, rfl, hf⟩

end PoL.Verkle
