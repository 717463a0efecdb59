import Verif.Proofs.RecoverSet
import Verif.Props.Pol

/-!
# A `Set` that panics after it has written

The root has become a vertex above a leaf; a `Set` of an identifier with a longer path beside this leaf panics at the
root, after the root was changed.
-/

set_option linter.unusedSectionVars false

namespace PoL.Pol
open Sparse Verkle Spec PoL.PP Props

variable {G1 G2 GT : Type} [AddCommGroup G1] [Module Zr G1] [AddCommGroup G2] [Module Zr G2]
  [AddCommGroup GT] [Module Zr GT] [DecidableEq G1] [DecidableEq GT]

/-- `ProveTot` states the sum in the stored root. -/
theorem proveTot_of_root {E : Curve G1 G2 GT} (hE : E.Lawful) {α : Zr} {F L : ℕ} {ls : LiabilitySet G1 G2 GT}
    (h : Fits E α F L ls.pp) {x : Verkle.Vertex G1} (hx : load E ls.s.db [] = some x) {n : ℤ} (hn : x.sum = intToZr n)
    (h0 : 0 ≤ n) (h1 : n < 2 ^ 63) : ∃ tp, ls.proveTot E = some tp ∧ tp.sum = n := by
  have hl : (x.valuesVec (F + 1) ++ [x.blindingFactor]).length = F + 2 := by simp [valuesVec_length]
  obtain ⟨C, mi, π, -, c2, c3, -⟩ := C01_opening_verifies E hE α (F + 2) (by omega) _ hl F (by omega)
  have hmi : mi = intToZr n := by
    rw [List.getElem?_append_left (by rw [valuesVec_length]; omega), valuesVec_eq,
      List.getElem?_append_right (by simp)] at c3
    rw [← hn]
    simpa using c3.symm
  have hN : ls.pp.PPPP.N = F + 2 := by rw [h.PPPP]; rfl
  refine ⟨⟨π, n⟩, ?_, rfl⟩
  unfold LiabilitySet.proveTot
  refine obind_step (load_fromBytes hx) ?_
  have : LiabilitySet.openSumFromVertex ls x = some (mi, π) := by
    unfold LiabilitySet.openSumFromVertex
    dsimp only
    rw [hN, if_neg (by omega)]
    have e1 : F + 2 - 1 = F + 1 := rfl
    rw [e1, hl, if_neg (by omega), h.PPPP]
    exact c2
  refine obind_step this ?_
  rw [hmi]
  exact obind_step (zrInt_intToZr h0 h1) rfl

/-- The amounts below a vertex that was fresh before the put. -/
theorem total_fresh (F : ℕ) (upd : UpdateR Data State) (n : ℤ) (path : List ℕ) (hp : ∀ x ∈ path, x < F) (ps key : Str)
    (s : State) : total F path.length (putAtR F upd (some (.amount n)) path ps (.mk key none []) s).vertex = n := by
  induction path generalizing ps key s with
  | nil => rfl
  | cons p rest ih =>
    rw [List.length_cons, total, putAtR_cons, (roundR_vertex ..).2]
    rw [Finset.sum_eq_single p]
    · rw [descGet_descSet, if_pos rfl]
      exact ih (fun x hx => hp x (by simp [hx])) _ _ _
    · intro i _ hi
      rw [descGet_descSet, if_neg (Ne.symm hi)]
      rfl
    · intro h
      exact absurd (Finset.mem_range.2 (hp p (by simp))) h

/-- The vertices passed on the way down from a good vertex are stored. -/
theorem good_path {E : Curve G1 G2 GT} {α : Zr} {F : ℕ} {P : List ℕ → Prop} {db : Db} (q : List ℕ) (pre : List ℕ)
    (v : Sparse.Vertex Data) (hg : Good E α F P q.length pre v db) (d : Option Data) (us : List (Sparse.Vertex Data))
    (h : getAt q v = some (d, us)) :
    ∃ xs : List (Verkle.Vertex G1), us.mapM (fun u => do
      let key ← (← u.data).str
      Verkle.Vertex.fromBytes E (db key)) = some xs := by
  induction q generalizing pre v us with
  | nil =>
    simp only [getAt, Option.some.injEq, Prod.mk.injEq] at h
    rw [← h.2]
    exact ⟨[], rfl⟩
  | cons p rest ih =>
    obtain ⟨x, hx, -⟩ := hg.stored
    obtain ⟨-, hd, hch, -⟩ := hg
    rw [getAt] at h
    cases hc : descGet v.desc p with
    | none => simp [hc] at h
    | some u =>
      cases hr : getAt rest u with
      | none => simp [hc, hr] at h
      | some r =>
        obtain ⟨d', us'⟩ := r
        simp only [hc, hr, Option.some.injEq, Prod.mk.injEq] at h
        obtain ⟨rfl, rfl⟩ := h
        obtain ⟨xs, hxs⟩ := ih (pre ++ [p]) u (hch p u hc).2 us' hr
        refine ⟨x :: xs, ?_⟩
        rw [List.mapM_cons]
        refine obind_step (obind_step hd (obind_step (show Data.str (.key (keyOf pre)) = some _ from rfl)
          (load_fromBytes hx))) (obind_step hxs rfl)

/-- What is known of the set after its first `Set`, at a child of the root. -/
theorem first_short {E : Curve G1 G2 GT} (hE : E.Lawful) {env : Env} (henv : env.Lawful) {α : Zr} {F : ℕ}
    {ls : LiabilitySet G1 G2 GT} (h : NewTree E α F ls.tree) (id : Str) (c : ℕ) (hc : c < F)
    (hid : ls.tree.id2Path id = some [c]) (a : ℤ) (ha : 0 ≤ a) :
    ∃ ls1 v bf V P, ls.set E env id a = some ls1 ∧ ls1.tree = { ls.tree with root := some v } ∧ ls1.pp = ls.pp ∧
      Good E α F P 1 [] v ls1.s.db ∧ load E ls1.s.db [] = some (leafVertex F bf (childVals F 0 v.desc) V) ∧
      (∀ i, i ≠ c → descGet v.desc i = none) ∧ total F 1 v = a ∧ ∃ u, descGet v.desc c = some u := by
  obtain ⟨v, s, hput, hgood, -⟩ := putAt_good hE henv α F h.bound.le (fun _ => False) (fun _ => False) a [c] (by simpa using hc)
    [] (.mk [] none []) ls.s (Or.inl rfl) (fun _ _ h => h.elim)
  have hR := (putAtR_iff (fun k n ds l i s d s' => updateR_iff E (newPublicParams E α (F + 2)) env k n ds l i s d s')
    [c] (keyOf []) (.mk [] none []) v ls.s s).2 hput
  obtain ⟨bf, V, hl, -⟩ := hgood.2.2.2.1 rfl
  have hv : v = (putAtR F (updateInnerVertexR E (newPublicParams E α (F + 2)) env) (some (.amount a)) [c] (keyOf [])
      (.mk [] none []) ls.s).vertex := by rw [hR]
  have hdesc : ∃ u, v.desc = [(c, u)] := by
    rw [hv, putAtR_cons, (roundR_vertex ..).2]
    exact ⟨_, rfl⟩
  refine ⟨{ ls with tree := { ls.tree with root := some v }, s := s }, v, bf, V, _, ?_, rfl, rfl, hgood, hl, ?_, ?_, ?_⟩
  · unfold LiabilitySet.set
    rw [if_neg (by omega)]
    have hvput := vput_eq (E := E) (env := env) (t := ls.tree) (id := id) (n := a) (s := ls.s) hid
      (by rw [h.fanOut, h.root, h.pp]; exact hput)
    exact obind_step hvput rfl
  · intro i hi
    obtain ⟨u, hu⟩ := hdesc
    rw [hu]
    simp [descGet, Ne.symm hi]
  · rw [hv]
    exact total_fresh F _ a [c] (by simpa using hc) _ _ _
  · obtain ⟨u, hu⟩ := hdesc
    exact ⟨u, by rw [hu]; simp [descGet]⟩

/-- The update of an inner vertex that was made as one above leaves: if it has a leaf beside the child written, it panics
after the vertex was changed, and the vertex is stored with the new sum. -/
theorem updateInner_over_leaf {E : Curve G1 G2 GT} (hE : E.Lawful) (env : Env) (α : Zr) (F : ℕ) (hF : F + 2 ≤ 65536)
    (key : Str) (node : Data) (descendants : List (Option Data)) (c c0 : ℕ) (hc : c < F) (hc0 : c0 < F) (hne : c0 ≠ c)
    (s : State) (bf : Zr) (vals : ℕ → Option Zr) (V : G1) (hl : load E s.db key = some (leafVertex F bf vals V))
    (h0 : (vals c0).isSome) (k : Str) (hk : descendants[c]? = some (some (.key k))) (x : Verkle.Vertex G1)
    (hx : load E s.db k = some x) :
    ∃ y : Verkle.Vertex G1, updateInnerLayerR E (newPublicParams E α (F + 2)) env key (some node) descendants c s
      = (none, store E env key y s) ∧
      y.sum = (∑ i ∈ Finset.range F, (vals i).getD 0) + (x.sum - (vals c).getD 0) := by
  have hN : (newPublicParams E α (F + 2)).N = F + 2 := rfl
  have hfetch : fetchVertex E s.db (some (.key key)) = some (leafVertex F bf vals V) := by rw [fetch_key]; exact hl
  have hchild : childOf E s.db descendants c = some (x.sum, dig E x) := by
    unfold childOf
    refine obind_step hk (obind_step (show fetchVertex E s.db (some (.key k)) = some x by rw [fetch_key]; exact hx) ?_)
    exact obind_step (digest_eq hE x) rfl
  have hd : ((List.range (F + 2)).mapM fun i =>
      if (((leafVertex F bf vals V).values.set (UInt16.ofNat c) x.sum) (UInt16.ofNat i)).isSome then
        ((leafVertex F bf vals V).digests.set (UInt16.ofNat c) (dig E x)) (UInt16.ofNat i) else some (intToZr 0)) = none := by
    cases hm : (List.range (F + 2)).mapM fun i =>
      if (((leafVertex F bf vals V).values.set (UInt16.ofNat c) x.sum) (UInt16.ofNat i)).isSome then
        ((leafVertex F bf vals V).digests.set (UInt16.ofNat c) (dig E x)) (UInt16.ofNat i) else some (intToZr 0) with
    | none => rfl
    | some r =>
      have := mapM_some_mem _ _ _ hm c0 (by rw [List.mem_range]; omega)
      have e : UInt16.ofNat c0 ≠ UInt16.ofNat c := fun h => hne (ofNat16_inj (by omega) (by omega) h)
      have e1 : ((leafVertex F bf vals V).values.set (UInt16.ofNat c) x.sum) (UInt16.ofNat c0) = vals c0 := by
        unfold ZrMap.set
        rw [if_neg e]
        show mapBelow F vals (UInt16.ofNat c0) = _
        rw [mapBelow_ofNat _ (by omega), if_pos hc0]
      have e2 : ((leafVertex F bf vals V).digests.set (UInt16.ofNat c) (dig E x)) (UInt16.ofNat c0) = none := by
        unfold ZrMap.set
        rw [if_neg e]
        rfl
      rw [e1, if_pos h0, e2] at this
      cases this
  have hs : updateSum (leafVertex F bf vals V).sum (((leafVertex F bf vals V).values (UInt16.ofNat c)).getD (intToZr 0)) x.sum
      = (∑ i ∈ Finset.range F, (vals i).getD 0) + (x.sum - (vals c).getD 0) := by
    have e1 : (leafVertex F bf vals V).values (UInt16.ofNat c) = vals c := by
      show mapBelow F vals (UInt16.ofNat c) = _
      rw [mapBelow_ofNat _ (by omega), if_pos hc]
    rw [e1]
    show (∑ i ∈ Finset.range F, (vals i).getD 0) + (x.sum - (vals c).getD (intToZr 0)) = _
    simp [intToZr]
  unfold updateInnerLayerR
  dsimp only
  rw [hfetch]
  dsimp only
  rw [hchild]
  dsimp only
  unfold writeInnerR
  dsimp only
  rw [hN, if_neg (by omega), hd, hs]
  dsimp only [Option.bind_none]
  split
  · exact ⟨_, rfl, rfl⟩
  · exact ⟨_, rfl, rfl⟩

theorem lget_none (E : Curve G1 G2 GT) (env : Env) (ls : LiabilitySet G1 G2 GT) (id : Str) (p : List ℕ)
    (v : Sparse.Vertex Data) (hid : ls.tree.id2Path id = some p) (hv : ls.tree.root = some v) (h : getAt p v = none) :
    ls.get E env id = some none := by
  have hs : (ls.tree.sparse E env).get id = some none := by
    unfold Sparse.Tree.get
    refine obind_step (show (ls.tree.sparse E env).id2Path id = some p from hid) ?_
    rw [show (ls.tree.sparse E env).root = some v from hv]
    exact congrArg some h
  have ht : ls.tree.get E env id ls.s.db = some none := by
    unfold Verkle.Tree.get
    exact obind_step hs rfl
  unfold LiabilitySet.get
  exact obind_step ht rfl

theorem lget_some (E : Curve G1 G2 GT) (env : Env) (ls : LiabilitySet G1 G2 GT) (id : Str) (p : List ℕ)
    (v : Sparse.Vertex Data) (hid : ls.tree.id2Path id = some p) (hv : ls.tree.root = some v) (n : ℤ)
    (us : List (Sparse.Vertex Data)) (h : getAt p v = some (some (.amount n), us)) (xs : List (Verkle.Vertex G1))
    (hxs : us.mapM (fun u => do
      let key ← (← u.data).str
      Verkle.Vertex.fromBytes E (ls.s.db key)) = some xs) : ls.get E env id = some (some n) := by
  have hs : (ls.tree.sparse E env).get id = some (some (some (.amount n), us)) := by
    unfold Sparse.Tree.get
    refine obind_step (show (ls.tree.sparse E env).id2Path id = some p from hid) ?_
    rw [show (ls.tree.sparse E env).root = some v from hv]
    exact congrArg some h
  have ht : ls.tree.get E env id ls.s.db = some (some (n, xs)) := by
    unfold Verkle.Tree.get
    refine obind_step hs ?_
    exact obind_step hxs rfl
  unfold LiabilitySet.get
  exact obind_step ht rfl

/-- `Set` of an identifier with a longer path beside the leaf that is a child of the root: it panics, and it has written. -/
theorem set_beside_leaf {E : Curve G1 G2 GT} (hE : E.Lawful) {env : Env} (henv : env.Lawful) {α : Zr} {F : ℕ}
    {ls : LiabilitySet G1 G2 GT} (h : NewTree E α F ls.tree) (id id' : Str) (c c' : ℕ) (rest : List ℕ) (hc : c < F)
    (hid : ls.tree.id2Path id = some [c]) (hid' : ls.tree.id2Path id' = some (c' :: rest)) (hne : c ≠ c')
    (hrest : rest ≠ []) (hp : ∀ x ∈ c' :: rest, x < F) (a n : ℤ) (ha : 0 ≤ a) (hn : 0 ≤ n) :
    ∃ ls1 ls2 x1 x2, ls.set E env id a = some ls1 ∧ ls1.get E env id' = some none ∧
      ls1.setR E env id' n = (false, ls2) ∧ ls2.get E env id' = some (some n) ∧
      ls1.pp = ls.pp ∧ ls2.pp = ls.pp ∧ load E ls1.s.db [] = some x1 ∧ x1.sum = intToZr a ∧
      load E ls2.s.db [] = some x2 ∧ x2.sum = intToZr (a + n) := by
  obtain ⟨ls1, v, bf, V, P, hset, htree, hpp, hgood, hl, hoff, htot, u0, hu0⟩ := first_short hE henv h id c hc hid a ha
  have hroot : ls1.tree.root = some v := by rw [htree]
  have hidp : ls1.tree.id2Path = ls.tree.id2Path := by rw [htree]
  have hPP : ls1.tree.PP = newPublicParams E α (F + 2) := by rw [htree]; exact h.pp
  have hfan : ls1.tree.fanOut = F := by rw [htree]; exact h.fanOut
  obtain ⟨hkey, hdata, hch, -, -⟩ := hgood
  have hkey : v.key = [] := hkey
  have hdata : v.data = some (.key []) := hdata
  obtain ⟨u, s2, hput, hgu, hframe⟩ := putAt_good hE henv α F h.bound.le (fun _ => False) (fun _ => False) n rest
    (fun x hx => hp x (by simp [hx])) [c'] (.mk (keyOf [c']) none []) ls1.s (Or.inl rfl) (fun _ _ h => h.elim)
  have hR := (putAtR_iff (fun k n ds l i s d s' => updateR_iff E (newPublicParams E α (F + 2)) env k n ds l i s d s')
    rest (keyOf [c']) (.mk (keyOf [c']) none []) u ls1.s s2).2 hput
  have hut : total F rest.length u = n := by
    have := total_fresh F (updateInnerVertexR E (newPublicParams E α (F + 2)) env) n rest
      (fun x hx => hp x (by simp [hx])) (keyOf [c']) (keyOf [c']) ls1.s
    rw [hR] at this
    exact this
  obtain ⟨m, hm⟩ : ∃ m, rest.length = m + 1 := by
    cases rest with
    | nil => exact absurd rfl hrest
    | cons p t => exact ⟨t.length, rfl⟩
  have hgu' := hgu
  rw [hm] at hgu hut
  obtain ⟨x, hx, hxs, -⟩ := hgu.stored
  have hud : u.data = some (.key (keyOf [c'])) := hgu.2.1
  have hdb : s2.db [] = ls1.s.db [] := hframe [] fun r hc => by
    have := keyOf_injective (a₁ := []) hc
    simp at this
  have hraw : rawData (descSet v.desc c' u) F
      = some ((List.range F).map fun i => (descGet (descSet v.desc c' u) i).bind Sparse.Vertex.data) := by
    apply rawData_eq
    intro q w hq
    rw [descGet_descSet] at hq
    split_ifs at hq with hcq
    · rw [← hcq]; exact hp c' (by simp)
    · exact (hch q w hq).1
  have hget : ((List.range F).map fun i => (descGet (descSet v.desc c' u) i).bind Sparse.Vertex.data)[c']?
      = some (some (.key (keyOf [c']))) := by
    rw [List.getElem?_map, List.getElem?_range (hp c' (by simp)), Option.map_some, descGet_descSet, if_pos rfl, ← hud]
    rfl
  have hl2 : load E s2.db [] = some (leafVertex F bf (childVals F 0 v.desc) V) := by
    rw [load_eq] at hl ⊢
    rw [hdb]; exact hl
  obtain ⟨y, hy, hys⟩ := updateInner_over_leaf hE env α F h.bound.le [] (.key []) _ c' c (hp c' (by simp)) hc hne s2 bf
    (childVals F 0 v.desc) V hl2 (by unfold childVals; rw [hu0]; rfl) _ hget x hx
  have hround : putAtR F (updateInnerVertexR E (newPublicParams E α (F + 2)) env) (some (.amount n)) (c' :: rest) (keyOf [])
      v ls1.s = ⟨false, .mk [] (some (.key [])) (descSet v.desc c' u), store E env [] y s2⟩ := by
    rw [putAtR_cons, hoff c' (Ne.symm hne), Option.getD_none, childKey_keyOf, List.nil_append, hR]
    unfold roundR assignR
    rw [if_pos rfl, hraw, hkey, hdata]
    dsimp only
    have : updateInnerVertexR E (newPublicParams E α (F + 2)) env [] (some (.key []))
        ((List.range F).map fun i => (descGet (descSet v.desc c' u) i).bind Sparse.Vertex.data) rest.isEmpty c' s2
        = (none, store E env [] y s2) := by
      unfold updateInnerVertexR
      rw [if_neg (by simpa using hrest)]
      exact hy
    rw [this]
  obtain ⟨w, hw, hwd⟩ : ∃ w, Sparse.find rest u = some w ∧ w.data = some (.amount n) := by
    have := find_putAtR_self F (updateInnerVertexR E (newPublicParams E α (F + 2)) env) (some (.amount n)) rest (keyOf [c'])
      (.mk (keyOf [c']) none []) ls1.s
    rw [hR] at this
    cases hf : Sparse.find rest u with
    | none => rw [hf] at this; cases this
    | some w => rw [hf] at this; exact ⟨w, rfl, by simpa using this⟩
  obtain ⟨us, hus, -⟩ := getAt_eq rest u w hw
  have hgu2 := hgu'.frame (db' := (store E env [] y s2).db) (fun r => store_db E env [] y s2 _ fun hc => by
    have := keyOf_injective (a₂ := []) hc
    simp at this) (P' := fun _ => False) (fun _ h => h.elim)
  obtain ⟨xs, hxs'⟩ := good_path rest [c'] u hgu2 _ us hus
  refine ⟨ls1, { ls1 with tree := { ls1.tree with root := some (.mk [] (some (.key [])) (descSet v.desc c' u)) }
                          s := store E env [] y s2 },
    leafVertex F bf (childVals F 0 v.desc) V, y, hset, ?_, ?_, ?_, hpp, hpp, hl, ?_, load_store_self hE henv [] _ s2, ?_⟩
  · refine lget_none E env ls1 id' (c' :: rest) v (by rw [hidp]; exact hid') hroot ?_
    rw [getAt, hoff c' (Ne.symm hne)]
  · unfold LiabilitySet.setR Tree.putR
    rw [if_neg (by omega), hidp, hid', hfan, hPP, hroot]
    dsimp only
    rw [Option.getD_some, show ([] : Str) = keyOf [] from rfl, hround, hidp, hfan, hPP]
    rfl
  · refine lget_some E env { ls1 with tree := { ls1.tree with
          root := some (.mk [] (some (.key [])) (descSet v.desc c' u)) }, s := store E env [] y s2 } id' (c' :: rest) (.mk [] (some (.key [])) (descSet v.desc c' u))
      (show ls1.tree.id2Path id' = _ by rw [hidp]; exact hid') rfl n
      (.mk [] (some (.key [])) (descSet v.desc c' u) :: us) ?_ (y :: xs) ?_
    · rw [getAt]
      simp only [Sparse.Vertex.desc, descGet_descSet, if_true]
      rw [hus, hwd]
    · rw [List.mapM_cons]
      refine obind_step (obind_step (show Sparse.Vertex.data (.mk [] (some (.key [])) (descSet v.desc c' u)) = some (.key [])
        from rfl) (obind_step (show Data.str (.key []) = some [] from rfl)
          (load_fromBytes (load_store_self hE henv [] y s2)))) (obind_step hxs' rfl)
  · show (∑ i ∈ Finset.range F, (childVals F 0 v.desc i).getD 0) = _
    rw [sum_childVals, htot]
  · rw [hys, sum_childVals, htot, hxs, hut]
    have : childVals F 0 v.desc c' = none := by unfold childVals; rw [hoff c' (Ne.symm hne)]; rfl
    rw [this]
    simp [intToZr]

end PoL.Pol
