import Verif.Proofs.WritersStart
import Verif.Proofs.Concurrent
import Verif.Props.Pol

/-! Several writes at once: what `Get` and `ProveTot` give afterwards. -/

set_option linter.unusedSectionVars false

namespace PoL.Pol
open PoL.PP Sparse Spec Verkle Props

variable {G1 G2 GT : Type} [AddCommGroup G1] [Module Zr G1] [AddCommGroup G2] [Module Zr G2]
  [AddCommGroup GT] [Module Zr GT] [DecidableEq G1] [DecidableEq GT]

/-- `Get` of a path whose vertices are all stored. -/
theorem get_of_mem {E : Curve G1 G2 GT} {env : Env} {F L : ℕ} {T : List ℕ → Prop} {A : List ℕ → ℤ}
    {root : Sparse.Vertex Data} (hm : Mem F L T A root) (hpre : ∀ q p, q <+: p → T p → T q) (ls : LiabilitySet G1 G2 GT)
    (hroot : ls.tree.root = some root) {id : Str} {p : List ℕ} (hp : ls.tree.id2Path id = some p) (hpL : p.length = L)
    (hT : T p) (hst : ∀ q, q.length < L → T q → ∃ x, load E ls.s.db (keyOf q) = some x) :
    ls.get E env id = some (some (A p)) := by
  have hTi : ∀ i, T (p.take i) := fun i => hpre _ _ (List.take_prefix i p) hT
  have hu : ∀ i, ∃ u, vertexAt (p.take i) root = some u := fun i => hm.there _ (hTi i)
  choose us hus using hu
  have hx : ∀ i, ∃ x, i < L → Verkle.Vertex.fromBytes E (ls.s.db (keyOf (p.take i))) = some x := by
    intro i
    by_cases hi : i < L
    · obtain ⟨x, hx⟩ := hst (p.take i) (by rw [List.length_take]; omega) (hTi i)
      exact ⟨x, fun _ => load_fromBytes hx⟩
    · exact ⟨⟨0, .empty, .empty, 0, 0, none⟩, fun hc => absurd hc hi⟩
  choose fx hfx using hx
  obtain ⟨w, hw⟩ := hm.there p hT
  have hfind : Sparse.find p root = some w := by rw [← vertexAt_find]; exact hw
  obtain ⟨vs, hg, hvl⟩ := getAt_eq p root w hfind
  obtain ⟨-, -, hvs⟩ := getAt_some_iff p root _ vs hg
  have hvs' : vs = (List.range L).map us := by
    apply List.ext_getElem?
    intro i
    by_cases hi : i < L
    · rw [hvs i (by omega), List.getElem?_map, List.getElem?_range hi, Option.map_some, ← vertexAt_find, hus i]
    · rw [List.getElem?_eq_none (by omega), List.getElem?_eq_none (by simp; omega)]
  have hs : (ls.tree.sparse E env).get id = some (some (some (.amount (A p)), (List.range L).map us)) := by
    unfold Sparse.Tree.get
    refine obind_step hp ?_
    have : (ls.tree.sparse E env).root = some root := hroot
    rw [this]
    dsimp only
    rw [hg, hm.leaf p w hpL hw, hvs']
    rfl
  have := get_of_path (fun i hi => (hm.inner _ _ (by rw [List.length_take]; omega) (hus i)).2.1) hs ls.s.db fx
    (fun i hi => hfx i hi)
  unfold LiabilitySet.get
  rw [this]
  rfl

/-- `ProveTot` gives an accepted proof of the sum in the root. -/
theorem proveTot_of_inner {E : Curve G1 G2 GT} (hE : E.Lawful) {α : Zr} {F L : ℕ} {ls : LiabilitySet G1 G2 GT}
    (h : Fits E α F L ls.pp) (hF : F + 2 ≤ 65536) {bf : Zr} {vals digs : ℕ → Option Zr}
    (hx : load E ls.s.db [] = some (innerVertex E α F bf vals digs)) {n : ℤ}
    (hn : ∑ i ∈ Finset.range F, (vals i).getD 0 = intToZr n) (h0 : 0 ≤ n) (h1 : n < 2 ^ 63) :
    ∃ tp x, ls.proveTot E = some tp ∧ tp.sum = n ∧ Verkle.Vertex.fromBytes E (ls.s.db []) = some x ∧
      tp.verify E ls.pp x.V = some true := by
  obtain ⟨x, hxe⟩ : ∃ x, x = innerVertex E α F bf vals digs := ⟨_, rfl⟩
  have hvec : x.valuesVec (F + 1) ++ [x.blindingFactor] = valVec F vals bf := by
    rw [valuesVec_eq, hxe]
    unfold valVec innerVertex
    dsimp only
    rw [List.append_assoc]
    congr 1
    apply List.map_congr_left
    intro i hi
    rw [List.mem_range] at hi
    rw [mapBelow_ofNat _ (by omega), if_pos hi]
  rw [← hxe] at hx
  have hl : (x.valuesVec (F + 1) ++ [x.blindingFactor]).length = F + 2 := by simp [valuesVec_length]
  obtain ⟨C, mi, π, c1, c2, c3, c4⟩ := C01_opening_verifies E hE α (F + 2) (by omega) _ hl F (by omega)
  rw [commit_eq E α (F + 2) _ hl (by omega), Option.some.injEq] at c1
  have hsum : x.sum = intToZr n := by rw [hxe, ← hn]; rfl
  have hmi : mi = intToZr n := by
    rw [List.getElem?_append_left (by rw [valuesVec_length]; omega), valuesVec_eq,
      List.getElem?_append_right (by simp)] at c3
    rw [← hsum]
    simpa using c3.symm
  have hN : ls.pp.PPPP.N = F + 2 := by rw [h.PPPP]; rfl
  refine ⟨⟨π, n⟩, x, ?_, rfl, load_fromBytes hx, ?_⟩
  · unfold LiabilitySet.proveTot
    refine obind_step (load_fromBytes hx) ?_
    have : LiabilitySet.openSumFromVertex ls x = some (mi, π) := by
      unfold LiabilitySet.openSumFromVertex
      dsimp only
      rw [hN, if_neg (by omega)]
      have e1 : F + 2 - 1 = F + 1 := rfl
      rw [e1, hl, if_neg (by omega), h.PPPP]
      exact c2
    refine obind_step this ?_
    rw [hmi]
    exact obind_step (zrInt_intToZr h0 h1) rfl
  · unfold TotalProof.verify
    dsimp only
    rw [← hmi, h.PPPP, h.fanout]
    have hV : x.V = com E α (x.valuesVec (F + 1) ++ [x.blindingFactor]) := by rw [hvec, hxe]; rfl
    rw [hV]
    unfold com
    rw [c1]
    exact c4

theorem amountBelow_nil (h : List (List ℕ × ℤ)) : amountBelow h [] = totalAmount h := by simp [amountBelow, totalAmount]

theorem start_remaining (L i : ℕ) (e : List ℕ × ℤ) :
    remaining L i { path := e.1, amount := e.2, started := false, done := 0, pending := none }
      = .sets i :: List.replicate L (.calls i) := rfl

/-- The state after turns that keep each writer's order. -/
theorem run_turns {E : Curve G1 G2 GT} (hE : E.Lawful) {env : Env} (henv : env.Lawful) {α : Zr} {F L : ℕ}
    {ls ls1 : LiabilitySet G1 G2 GT} (h : NewSet E α F L ls) (hist news : List (Str × ℤ))
    (hids : ValidIds ls.tree.id2Path F L (hist ++ news)) (h1 : ls.sets E env hist = some ls1)
    (hnew : ∀ e ∈ byPath ls.tree.id2Path news, e.1 ∈ (byPath ls.tree.id2Path hist).map Prod.fst)
    (hnd : ((byPath ls.tree.id2Path news).map Prod.fst).Nodup) {v : Sparse.Vertex Data} (hv : ls1.tree.root = some v)
    (turns : List Turn) (k : ℕ) (hk : k ≤ L) (hin : ∀ t ∈ turns, t.writer < news.length)
    (hturns : ∀ i < news.length, turns.filter (fun t => decide (t.writer = i)) = .sets i :: List.replicate k (.calls i)) :
    ∃ r A, (Running.start (byPath ls.tree.id2Path news) v ls1.s).run E ls.tree.PP env F (eventsOf turns) = some r ∧
      Between E α F L (touched (byPath ls.tree.id2Path hist)) (latest (byPath ls.tree.id2Path hist)) A r ∧
      AmountsOf ls.tree.id2Path F L (touched (byPath ls.tree.id2Path hist)) A (hist ++ news) ∧
      r.writers = (byPath ls.tree.id2Path news).map (fun e => ⟨e.1, e.2, true, k, none⟩) ∧
      ∀ q, (∀ w ∈ r.writers, ∀ d, L - w.done ≤ d → q ≠ w.path.take d) → r.s.db (keyOf q) = ls1.s.db (keyOf q) := by
  have hL := h.pp.depth
  obtain ⟨hn, t, s, hputs, rfl⟩ := (sets_iff E env hist ls ls1).1 h1
  have hids1 : ValidIds ls.tree.id2Path F L hist := fun e he => hids e (by simp [he])
  have hb := start_between hE henv h.tree.bound.le h.tree.pp h.tree.fanOut h.tree.root (by omega) hids1 hputs hv
    (byPath ls.tree.id2Path news) hnd hnew
  have hlen : (Running.start (byPath ls.tree.id2Path news) v s).writers.length = news.length := by
    simp [Running.start, byPath]
  have hget : ∀ i w, (Running.start (byPath ls.tree.id2Path news) v s).writers[i]? = some w → i < news.length ∧
      ∃ e, (byPath ls.tree.id2Path news)[i]? = some e ∧
        w = { path := e.1, amount := e.2, started := false, done := 0, pending := none } := by
    intro i w hw
    refine ⟨by rw [← hlen]; exact (List.getElem?_eq_some_iff.1 hw).1, ?_⟩
    unfold Running.start at hw
    rw [List.getElem?_map] at hw
    obtain ⟨e, he, hwe⟩ := Option.map_eq_some_iff.1 hw
    exact ⟨e, he, hwe.symm⟩
  obtain ⟨r, A, c1, c2, c3, c4, c5⟩ := hb.turns hE henv h.tree.bound.le (fun q p => touched_prefix q p) turns
    (by rw [hlen]; exact hin) (by
      intro i w hw
      obtain ⟨hi, e, -, rfl⟩ := hget i w hw
      refine ⟨List.replicate (L - k) (.calls i), ?_⟩
      rw [hturns i hi, start_remaining, List.cons_append, ← List.replicate_add]
      congr 2
      omega)
  have hw : r.writers = (byPath ls.tree.id2Path news).map (fun e => ⟨e.1, e.2, true, k, none⟩) := by
    apply List.ext_getElem?
    intro i
    rw [List.getElem?_map]
    cases he : (byPath ls.tree.id2Path news)[i]? with
    | none =>
      have h2 := List.getElem?_eq_none_iff.1 he
      rw [List.getElem?_eq_none (by rw [c3, hlen]; simpa [byPath] using h2)]
      rfl
    | some e =>
      have hs : (Running.start (byPath ls.tree.id2Path news) v s).writers[i]?
          = some { path := e.1, amount := e.2, started := false, done := 0, pending := none } := by
        unfold Running.start
        rw [List.getElem?_map, he, Option.map_some]
      obtain ⟨hi, -⟩ := hget i _ hs
      obtain ⟨w, w1, w2, w3, w4⟩ := c4 i _ hs
      obtain ⟨x1, x2, x3, x4, x5⟩ := c2.writer w (List.mem_of_getElem? w1)
      rw [hturns i hi, start_remaining, List.cons_append, List.cons.injEq] at w4
      have w4 := w4.2
      have hst : w.started = true := by
        by_contra hc
        have hlen := congrArg List.length w4
        unfold remaining at hlen
        rw [if_neg hc] at hlen
        simp at hlen
        omega
      have hd : w.done = k := by
        have hlen := congrArg List.length w4
        unfold remaining at hlen
        rw [if_pos hst] at hlen
        simp at hlen
        omega
      rw [w1, Option.map_some, Option.some.injEq]
      cases w
      simp only at w2 w3 hst hd x1
      subst w2 w3 hst hd x1
      rfl
  refine ⟨r, A, by rw [h.tree.pp]; exact c1, c2, ?_, hw, c5⟩
  refine amountsOf_end hids hnew hnd c2 ?_ ?_
  · rw [hw, List.map_map]
    have : (fun w : Writer => (w.path, w.amount)) ∘ (fun e : List ℕ × ℤ => (⟨e.1, e.2, true, k, none⟩ : Writer)) = id := by
      funext e; rfl
    rw [this, List.map_id]
  · intro w hw'
    rw [hw] at hw'
    obtain ⟨e, -, rfl⟩ := List.mem_map.1 hw'
    rfl

/-- The contents of a stored vertex when there is no exception. -/
theorem stored_of_inv {E : Curve G1 G2 GT} (hE : E.Lawful) {α : Zr} {F L : ℕ} (hF : F + 2 ≤ 65536) {T : List ℕ → Prop}
    {A : List ℕ → ℤ} {ex : List ℕ → Prop} {db : Db} (h : Inv E α F L T A ex db) (hex : ∀ c, c ≠ [] → ¬ ex c)
    {id2Path : Str → Option (List ℕ)} {hist : List (Str × ℤ)} (hA : AmountsOf id2Path F L T A hist) (q : List ℕ)
    (hq : q.length < L) (hT : T q) : ∃ x, Verkle.Vertex.fromBytes E (db (keyOf q)) = some x ∧
        x.sum = intToZr (amountBelow (byPath id2Path hist) q) ∧
        (∀ k : UInt16, T (q ++ [k.toNat]) →
          x.values k = some (intToZr (amountBelow (byPath id2Path hist) (q ++ [k.toNat])))) ∧
        (∀ k : UInt16, ¬ T (q ++ [k.toNat]) → x.values k = none) ∧
        (q.length + 1 < L → (newPublicParams E α (F + 2)).commit (valuesOf F x) = some x.V ∧
          (∃ W, x.W = some W ∧ (newPublicParams E α (F + 2)).commit (digestsOf F x) = some W) ∧
          ∀ k : UInt16, T (q ++ [k.toNat]) →
            ∃ y, Verkle.Vertex.fromBytes E (db (keyOf (q ++ [k.toNat]))) = some y ∧ x.digests k = y.digest E) := by
  have hlt : ∀ i, T (q ++ [i]) → i < F := fun i hi =>
    (touched_length hA.valid ((hA.paths _).1 hi)).2 i (by simp)
  have hvo : ∀ (vals : ℕ → Option Zr), ((List.range F).map fun i => (mapBelow F vals (UInt16.ofNat i)).getD 0)
      = (List.range F).map fun i => (vals i).getD 0 := by
    intro vals
    apply List.map_congr_left
    intro i hi
    rw [List.mem_range] at hi
    rw [mapBelow_ofNat _ (by omega), if_pos hi]
  obtain ⟨n, hn⟩ : ∃ n, q.length + (n + 1) = L := ⟨L - q.length - 1, by omega⟩
  obtain ⟨x, hx, hsum⟩ := h.sum hA n q hn hT (fun r hr => hex _ (by simp [hr]))
  refine ⟨x, load_fromBytes hx, hsum, ?_⟩
  by_cases hl : q.length + 1 = L
  · obtain ⟨bf, vals, V, k1, k2, k3⟩ := h.leaf q hl hT
    rw [hx, Option.some.injEq] at k1
    subst k1
    refine ⟨fun k hk => ?_, fun k hk => ?_, fun hc => by omega⟩
    · show mapBelow F vals k = _
      unfold mapBelow
      rw [if_pos (hlt _ hk), k3 _ hk (hex _ (by simp)), hA.amount _ (by simpa using hl),
        amountBelow_self hA.valid _ (by simpa using hl)]
    · show mapBelow F vals k = _
      unfold mapBelow
      split_ifs
      · rw [← Option.not_isSome_iff_eq_none]
        exact fun hc => hk ((k2 _).1 hc)
      · rfl
  · obtain ⟨bf, vals, digs, k1, k2, k3, k4⟩ := h.inner q (by omega) hT
    rw [hx, Option.some.injEq] at k1
    subst k1
    refine ⟨fun k hk => ?_, fun k hk => ?_, fun _ => ⟨?_, ⟨_, rfl, ?_⟩, fun k hk => ?_⟩⟩
    · show mapBelow F vals k = _
      unfold mapBelow
      obtain ⟨y, y1, y2, -⟩ := k4 _ hk (hex _ (by simp))
      obtain ⟨m, hm⟩ : ∃ m, (q ++ [k.toNat]).length + (m + 1) = L := ⟨L - q.length - 2, by simp; omega⟩
      obtain ⟨y', y1', y3⟩ := h.sum hA m (q ++ [k.toNat]) hm hk (fun r hr => hex _ (by simp))
      rw [y1, Option.some.injEq] at y1'
      rw [if_pos (hlt _ hk), y2, y1', y3]
    · show mapBelow F vals k = _
      unfold mapBelow
      split_ifs
      · rw [← Option.not_isSome_iff_eq_none]
        exact fun hc => hk ((k2 _).1 hc)
      · rfl
    · unfold valuesOf innerVertex
      dsimp only
      rw [hvo]
      exact commit_eq E α (F + 2) _ (by simp) (by omega)
    · unfold digestsOf innerVertex
      dsimp only
      rw [hvo]
      exact commit_eq E α (F + 2) _ (by simp) (by omega)
    · obtain ⟨y, y1, -, y3⟩ := k4 _ hk (hex _ (by simp))
      refine ⟨y, load_fromBytes y1, ?_⟩
      show mapBelow F digs k = _
      unfold mapBelow
      rw [if_pos (hlt _ hk), y3, digest_eq hE y]

end PoL.Pol
