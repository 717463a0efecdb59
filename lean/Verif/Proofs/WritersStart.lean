import Verif.Proofs.Writers

/-! Several writes at once: the beginning and the end. -/

set_option linter.unusedSectionVars false

namespace PoL.Verkle
open PoL.PP Sparse Spec

variable {G1 G2 GT : Type} [AddCommGroup G1] [Module Zr G1] [AddCommGroup G2] [Module Zr G2]
  [AddCommGroup GT] [Module Zr GT] [DecidableEq G1] [DecidableEq GT]

theorem touched_prefix {h : List (List ℕ × ℤ)} (q p : List ℕ) (hq : q <+: p) (hp : touched h p) : touched h q := by
  obtain ⟨e, he, hpe⟩ := hp
  exact ⟨e, he, hq.trans hpe⟩

theorem touched_length {id2Path : Str → Option (List ℕ)} {F L : ℕ} {hist : List (Str × ℤ)}
    (hids : ValidIds id2Path F L hist) {q : List ℕ} (hq : touched (byPath id2Path hist) q) : q.length ≤ L ∧ ∀ x ∈ q, x < F := by
  obtain ⟨e, he, hqe⟩ := hq
  obtain ⟨h1, h2⟩ := byPath_length hids e.1 (List.mem_toFinset.2 (List.mem_map.2 ⟨e, he, rfl⟩))
  exact ⟨h1 ▸ hqe.length_le, fun x hx => h2 x (hqe.subset hx)⟩

/-- After a history of writes, further writes of written paths can begin. -/
theorem start_between {E : Curve G1 G2 GT} (hE : E.Lawful) {env : Env} (henv : env.Lawful) {α : Zr} {F : ℕ}
    {t t' : Tree G1 G2 GT} (hF : F + 2 ≤ 65536) (hPP : t.PP = newPublicParams E α (F + 2)) (hfan : t.fanOut = F)
    (hroot : t.root = none) {L : ℕ} (hL : 1 ≤ L) {hist : List (Str × ℤ)} {s s' : State}
    (hids : ValidIds t.id2Path F L hist) (h : t.puts E env hist s = some (t', s')) {v : Sparse.Vertex Data}
    (hv : t'.root = some v) (news : List (List ℕ × ℤ)) (hnd : (news.map Prod.fst).Nodup)
    (hnew : ∀ e ∈ news, e.1 ∈ (byPath t.id2Path hist).map Prod.fst) :
    Between E α F L (touched (byPath t.id2Path hist)) (latest (byPath t.id2Path hist)) (latest (byPath t.id2Path hist))
      (Running.start news v s') := by
  obtain ⟨t1, s1, h1, -, h2, hgood, -⟩ := puts_good hE henv α F hF t hPP hfan hroot L hL hist s hids
  rw [h, Option.some.injEq, Prod.mk.injEq] at h1
  obtain ⟨rfl, rfl⟩ := h1
  have hhe : hist ≠ [] := by
    rintro rfl
    rw [h2 rfl] at hv
    simp at hv
  obtain ⟨v', hv', hg⟩ := hgood hhe
  rw [hv, Option.some.injEq] at hv'
  subst hv'
  have hfind : ∀ q, touched (byPath t.id2Path hist) q → ∃ u, Sparse.find q v = some u := by
    intro q hq
    obtain ⟨v2, u, hv2, hu⟩ := find_touched hroot hids h q hq
    rw [hv, Option.some.injEq] at hv2
    subst hv2
    exact ⟨u, hu⟩
  have htou : ∀ q u, Sparse.find q v = some u → touched (byPath t.id2Path hist) q :=
    fun q u hu => find_iff_touched hroot hids h q v u hv hu
  have hconcat : ∀ q u i, Sparse.find q v = some u → Sparse.find (q ++ [i]) v = descGet u.desc i := by
    intro q u i hu
    have := vertexAt_concat q i v u (by rw [vertexAt_find]; exact hu)
    rwa [vertexAt_find] at this
  have hsome : ∀ q u, Sparse.find q v = some u → ∀ i, (descGet u.desc i).isSome = true ↔ touched (byPath t.id2Path hist) (q ++ [i]) := by
    intro q u hu i
    rw [← hconcat q u i hu]
    constructor
    · intro hs
      obtain ⟨w, hw⟩ := Option.isSome_iff_exists.1 hs
      exact htou _ w hw
    · intro ht
      obtain ⟨w, hw⟩ := hfind _ ht
      rw [hw]; rfl
  have hat : ∀ q u, q.length ≤ L → Sparse.find q v = some u →
      Good E α F (fun q => touches t.id2Path hist q ≤ 1) (L - q.length) q u s'.db := by
    intro q u hq hu
    have := hg.find q hq u hu
    rwa [List.nil_append] at this
  refine ⟨⟨?_, ?_, ?_⟩, ⟨?_, ?_⟩, ?_, ?_, ?_, fun _ _ => rfl⟩
  · intro q hq
    obtain ⟨u, hu⟩ := hfind q hq
    exact ⟨u, by rw [vertexAt_find]; exact hu⟩
  · intro q u hq hu
    have hu' := hu
    change vertexAt q v = some u at hu'
    rw [vertexAt_find] at hu'
    have hgu := hat q u hq.le hu'
    rw [show L - q.length = (L - q.length - 1) + 1 by omega] at hgu
    obtain ⟨k1, k2, k3, -⟩ := hgu
    exact ⟨k1, k2, fun i w hi => (k3 i w hi).1⟩
  · intro q u hq hu
    have hu' := hu
    change vertexAt q v = some u at hu'
    rw [vertexAt_find] at hu'
    have hd := leaf_data hroot hids h q hq
    rw [hv, Option.bind_some, hu', Option.map_some] at hd
    obtain ⟨n, hn1, hn2⟩ := Option.map_eq_some_iff.1 hd.symm
    rw [← hn2]
    unfold latest
    rw [hn1]
    rfl
  · intro q hq hT
    obtain ⟨u, hu⟩ := hfind q hT
    have hgu := hat q u (by omega) hu
    rw [show L - q.length = 0 + 1 by omega] at hgu
    obtain ⟨-, -, -, k4, -⟩ := hgu
    obtain ⟨bf, V, hl, -⟩ := k4 rfl
    refine ⟨bf, childVals F 0 u.desc, V, hl, fun i => ?_, fun i hi _ => ?_⟩
    · rw [← hsome q u hu i]
      unfold childVals
      rw [Option.isSome_map]
    · obtain ⟨w, hw⟩ := hfind _ hi
      have hw' := hw
      rw [hconcat q u i hu] at hw'
      unfold childVals
      rw [hw', Option.map_some, total_eq hroot hids h v hv 0 (q ++ [i]) (by simpa using hq) w hw,
        Pol.amountBelow_self hids _ (by simpa using hq)]
  · intro q hq hT
    obtain ⟨u, hu⟩ := hfind q hT
    have hgu := hat q u (by omega) hu
    obtain ⟨m, hm⟩ : ∃ m, L - q.length = m + 1 + 1 := ⟨L - q.length - 2, by omega⟩
    rw [hm] at hgu
    obtain ⟨-, -, k3, -, k5⟩ := hgu
    obtain ⟨bf, hl⟩ := k5 (by omega)
    refine ⟨bf, _, _, hl, fun i => ?_, fun i => ?_, fun i hi _ => ?_⟩
    · rw [← hsome q u hu i]
      unfold childVals
      rw [Option.isSome_map]
    · rw [← hsome q u hu i]
      unfold childDigs
      rw [Option.isSome_map]
    · obtain ⟨w, hw⟩ := hfind _ hi
      rw [hconcat q u i hu] at hw
      obtain ⟨x, x1, x2, -⟩ := (k3 i w hw).2.stored
      refine ⟨x, x1, ?_, ?_⟩
      · unfold childVals
        rw [hw, Option.map_some, x2]
      · unfold childDigs
        rw [hw, Option.map_some, x1]
        rfl
  · intro w hw
    obtain ⟨e, he, rfl⟩ := List.mem_map.1 hw
    have hm := hnew e he
    obtain ⟨e', he', hee⟩ := List.mem_map.1 hm
    refine ⟨rfl, (byPath_length hids _ (List.mem_toFinset.2 hm)).1, Nat.zero_le _, ⟨e', he', ?_⟩, fun _ => rfl⟩
    rw [hee]
  · show ((news.map fun e => ({ path := e.1, amount := e.2, started := false, done := 0, pending := none } : Writer)).map
      Writer.path).Nodup
    rw [List.map_map]
    exact hnd
  · intro w hw hs
    obtain ⟨e, he, rfl⟩ := List.mem_map.1 hw
    simp at hs

/-- The amounts in memory are those of some history of writes of the paths in `T`. -/
structure AmountsOf (id2Path : Str → Option (List ℕ)) (F L : ℕ) (T : List ℕ → Prop) (A : List ℕ → ℤ)
    (hist : List (Str × ℤ)) : Prop where
  valid : ValidIds id2Path F L hist
  paths : ∀ q, T q ↔ touched (byPath id2Path hist) q
  amount : ∀ p, p.length = L → A p = latest (byPath id2Path hist) p

/-- Below a vertex without exceptions the stored sums are the amounts. -/
theorem Inv.sum {E : Curve G1 G2 GT} {α : Zr} {F L : ℕ} {T : List ℕ → Prop} {A : List ℕ → ℤ} {ex : List ℕ → Prop} {db : Db}
    (h : Inv E α F L T A ex db) {id2Path : Str → Option (List ℕ)} {hist : List (Str × ℤ)}
    (hA : AmountsOf id2Path F L T A hist) (n : ℕ) (q : List ℕ) (hq : q.length + (n + 1) = L) (hT : T q)
    (hex : ∀ r, r ≠ [] → ¬ ex (q ++ r)) :
    ∃ x, load E db (keyOf q) = some x ∧ x.sum = intToZr (amountBelow (byPath id2Path hist) q) := by
  -- the sum over the children
  have key : ∀ vals : ℕ → Option Zr, (∀ i, (vals i).isSome = true ↔ T (q ++ [i])) →
      (∀ i, T (q ++ [i]) → vals i = some (intToZr (amountBelow (byPath id2Path hist) (q ++ [i])))) →
      ∑ i ∈ Finset.range F, (vals i).getD 0 = intToZr (amountBelow (byPath id2Path hist) q) := by
    intro vals h1 h2
    rw [amountBelow_split hA.valid q (by omega), intToZr, Int.cast_sum]
    refine Finset.sum_congr rfl fun i _ => ?_
    by_cases hi : T (q ++ [i])
    · rw [h2 i hi]; rfl
    · have : vals i = none := by
        rw [← Option.not_isSome_iff_eq_none]
        exact fun hc => hi ((h1 i).1 hc)
      rw [this, Pol.amountBelow_untouched _ _ (fun hc => hi ((hA.paths _).2 hc))]
      simp
  induction n generalizing q with
  | zero =>
    obtain ⟨bf, vals, V, h1, h2, h3⟩ := h.leaf q hq hT
    refine ⟨_, h1, key vals h2 fun i hi => ?_⟩
    rw [h3 i hi (hex _ (by simp)), hA.amount _ (by simpa using hq),
      Pol.amountBelow_self hA.valid _ (by simpa using hq)]
  | succ n ih =>
    obtain ⟨bf, vals, digs, h1, h2, -, h4⟩ := h.inner q (by omega) hT
    refine ⟨_, h1, key vals h2 fun i hi => ?_⟩
    obtain ⟨y, y1, y2, -⟩ := h4 i hi (hex _ (by simp))
    obtain ⟨x, x1, x2⟩ := ih (q ++ [i]) (by simp; omega) hi (fun r hr => by rw [List.append_assoc]; exact hex _ (by simp)) (by
      intro vals h1 h2
      rw [amountBelow_split hA.valid (q ++ [i]) (by simp; omega), intToZr, Int.cast_sum]
      refine Finset.sum_congr rfl fun j _ => ?_
      by_cases hj : T (q ++ [i] ++ [j])
      · rw [h2 j hj]; rfl
      · have : vals j = none := by
          rw [← Option.not_isSome_iff_eq_none]
          exact fun hc => hj ((h1 j).1 hc)
        rw [this, Pol.amountBelow_untouched _ _ (fun hc => hj ((hA.paths _).2 hc))]
        simp)
    rw [y1, Option.some.injEq] at x1
    rw [y2, x1, x2]

/-- The amount last written when the paths written at the end are different from each other. -/
theorem latest_append_nodup (h news : List (List ℕ × ℤ)) (hnd : (news.map Prod.fst).Nodup) (p : List ℕ) :
    (∀ n, (p, n) ∈ news → latest (h ++ news) p = n) ∧ (p ∉ news.map Prod.fst → latest (h ++ news) p = latest h p) := by
  induction news using List.reverseRecOn with
  | nil => simp
  | append_singleton news e ih =>
    rw [List.map_append, List.nodup_append] at hnd
    obtain ⟨i1, i2⟩ := ih hnd.1
    have hlat : latest (h ++ (news ++ [e])) p = if e.1 = p then e.2 else latest (h ++ news) p := by
      unfold latest
      rw [← List.append_assoc, Sparse.lastPut_concat]
      split_ifs <;> rfl
    rw [hlat]
    constructor
    · intro n hn
      rw [List.mem_append, List.mem_singleton] at hn
      rcases hn with hn | hn
      · rw [if_neg]
        · exact i1 n hn
        · intro hc
          exact hnd.2.2 p (List.mem_map.2 ⟨_, hn, rfl⟩) e.1 (by simp) hc.symm
      · rw [← hn, if_pos rfl]
    · intro hn
      rw [List.map_append, List.mem_append, not_or] at hn
      rw [if_neg (fun hc => hn.2 (by simp [hc])), i2 hn.1]

/-- When all leaves have been set, the amounts in memory are those of the history with the new writes. -/
theorem amountsOf_end {E : Curve G1 G2 GT} {α : Zr} {F L : ℕ} {id2Path : Str → Option (List ℕ)}
    {hist news : List (Str × ℤ)} (hids : ValidIds id2Path F L (hist ++ news))
    (hnew : ∀ e ∈ byPath id2Path news, e.1 ∈ (byPath id2Path hist).map Prod.fst)
    (hnd : ((byPath id2Path news).map Prod.fst).Nodup) {A : List ℕ → ℤ} {r : Running}
    (h : Between E α F L (touched (byPath id2Path hist)) (latest (byPath id2Path hist)) A r)
    (hw : r.writers.map (fun w => (w.path, w.amount)) = byPath id2Path news) (hst : ∀ w ∈ r.writers, w.started = true) :
    AmountsOf id2Path F L (touched (byPath id2Path hist)) A (hist ++ news) := by
  have hb : byPath id2Path (hist ++ news) = byPath id2Path hist ++ byPath id2Path news := by
    unfold byPath; rw [List.map_append]
  refine ⟨hids, fun q => ?_, fun p _ => ?_⟩
  · rw [hb]
    constructor
    · rintro ⟨e, he, hq⟩
      exact ⟨e, by simp [he], hq⟩
    · rintro ⟨e, he, hq⟩
      rw [List.mem_append] at he
      rcases he with he | he
      · exact ⟨e, he, hq⟩
      · obtain ⟨e', he', hee⟩ := List.mem_map.1 (hnew e he)
        exact ⟨e', he', by rw [hee]; exact hq⟩
  · rw [hb]
    obtain ⟨l1, l2⟩ := latest_append_nodup (byPath id2Path hist) (byPath id2Path news) hnd p
    by_cases hp : p ∈ (byPath id2Path news).map Prod.fst
    · obtain ⟨e, he, rfl⟩ := List.mem_map.1 hp
      rw [l1 e.2 he]
      rw [← hw] at he
      obtain ⟨w, hwm, rfl⟩ := List.mem_map.1 he
      exact h.set w hwm (hst w hwm)
    · rw [l2 hp]
      refine h.unset p fun w hwm _ hc => hp ?_
      rw [← hw, List.map_map]
      exact List.mem_map.2 ⟨w, hwm, hc⟩

end PoL.Verkle
