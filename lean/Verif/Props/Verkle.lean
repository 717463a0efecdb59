import Verif.Proofs.VerkleMore
import Verif.Spec.VerkleRun

/-!
# The Verkle tree (C37–C42)
-/

set_option linter.unusedSectionVars false

namespace PoL.Props
open PoL.PP Spec Verkle

variable {G1 G2 GT : Type} [AddCommGroup G1] [Module Zr G1] [AddCommGroup G2] [Module Zr G2]
  [AddCommGroup GT] [Module Zr GT] [DecidableEq G1] [DecidableEq GT]

/-! ## C37: serialization of vertices -/

/-- C37: `FromBytes` gives back the vertex from its `Bytes`, in whatever order the maps are visited. -/
theorem C37_vertex_roundtrip {E : Curve G1 G2 GT} (hE : E.Lawful) (v : Vertex G1)
    (orderDigests orderValues : List UInt16) (hdn : orderDigests.Nodup) (hvn : orderValues.Nodup)
    (hd : ∀ k, k ∈ orderDigests ↔ (v.digests k).isSome) (hv : ∀ k, k ∈ orderValues ↔ (v.values k).isSome) :
    Vertex.fromBytes E (v.bytes E orderDigests orderValues) = some v :=
  fromBytes_bytes hE v _ _ hd hv hdn hvn

/-- C37: hence different vertices have different bytes. -/
theorem C37_bytes_determine_vertex {E : Curve G1 G2 GT} (hE : E.Lawful) (v v' : Vertex G1)
    (od ov od' ov' : List UInt16) (hdn : od.Nodup) (hvn : ov.Nodup) (hdn' : od'.Nodup) (hvn' : ov'.Nodup)
    (hd : ∀ k, k ∈ od ↔ (v.digests k).isSome) (hv : ∀ k, k ∈ ov ↔ (v.values k).isSome)
    (hd' : ∀ k, k ∈ od' ↔ (v'.digests k).isSome) (hv' : ∀ k, k ∈ ov' ↔ (v'.values k).isSome)
    (h : v.bytes E od ov = v'.bytes E od' ov') : v = v' := by
  have h1 := C37_vertex_roundtrip hE v od ov hdn hvn hd hv
  have h2 := C37_vertex_roundtrip hE v' od' ov' hdn' hvn' hd' hv'
  rw [h, h2] at h1
  exact (Option.some.inj h1).symm

example : Vertex.fromBytes toyCurve
    ((⟨3, ZrMap.set .empty 5 7, ZrMap.set (ZrMap.set .empty 5 1) 300 2, 7, (4 : Zr), some 9⟩ : Vertex Zr).bytes toyCurve
      [300, 5] [5])
    = some ⟨3, ZrMap.set .empty 5 7, ZrMap.set (ZrMap.set .empty 5 1) 300 2, 7, (4 : Zr), some 9⟩ := by
  apply C37_vertex_roundtrip toyCurve_lawful
  · decide
  · decide
  · intro k
    by_cases h1 : k = 300
    · simp [ZrMap.set, h1]
    · by_cases h2 : k = 5
      · simp [ZrMap.set, h2]
      · simp [ZrMap.set, ZrMap.empty, h1, h2]
  · intro k
    by_cases h2 : k = 5
    · simp [ZrMap.set, h2]
    · simp [ZrMap.set, ZrMap.empty, h2]

/-! ## C38: database keys -/

/-- C38: different paths have different keys. -/
theorem C38_keys_injective (q r : List ℕ) (h : keyOf q = keyOf r) : q = r := keyOf_injective h

/-- C38: only the root has the empty key. -/
theorem C38_root_key (q : List ℕ) : keyOf q = [] ↔ q = [] :=
  ⟨fun h => keyOf_injective (by rw [h]; rfl), fun h => by rw [h]; rfl⟩

/-- C38: a write at path `p` changes the database only at the keys of the proper prefixes of `p`. -/
theorem C38_write_footprint {E : Curve G1 G2 GT} (hE : E.Lawful) {env : Env} (henv : env.Lawful) 
    {t t1 t2 : Tree G1 G2 GT} (ht : t.root = none) (hist : List (Str × ℤ)) (id : Str) (n : ℤ)
    {s s1 s2 : State} (h1 : t.puts E env hist s = some (t1, s1)) (h2 : t1.put E env id n s1 = some (t2, s2)) (p : List ℕ)
    (hp : t.id2Path id = some p) (k : Str) (hk : s2.db k ≠ s1.db k) :
    ∃ q, q <+: p ∧ q.length < p.length ∧ k = keyOf q := by
  by_contra hc
  apply hk
  exact put_footprint hE henv ht (e := (id, n)) h1 h2 p hp k
    (fun q hq hl he => hc ⟨q, hq, hl, he⟩)

/-! ## C39: sums -/

/-- Writes with valid identifiers never panic. -/
theorem C39_writes_return {E : Curve G1 G2 GT} (hE : E.Lawful) {env : Env} (henv : env.Lawful) {α : Zr} {F : ℕ}
    {t : Tree G1 G2 GT} (ht : NewTree E α F t) {L : ℕ} (hL : 1 ≤ L) (hist : List (Str × ℤ)) (s : State)
    (hids : ValidIds t.id2Path F L hist) : ∃ t' s', t.puts E env hist s = some (t', s') := by
  obtain ⟨t', s', h, -⟩ := puts_good hE henv α F ht.bound.le t ht.pp ht.fanOut ht.root L hL hist s hids
  exact ⟨t', s', h⟩

/-- C39: after any history of writes, the vertex stored for a path above the leaves carries the sum of the
latest amounts below it, and its value at each index is the sum of the latest amounts below that child. -/
theorem C39_stored_sums {E : Curve G1 G2 GT} (hE : E.Lawful) {env : Env} (henv : env.Lawful) {α : Zr} {F : ℕ}
    {t t' : Tree G1 G2 GT} (ht : NewTree E α F t) {L : ℕ} (hL : 1 ≤ L) (hist : List (Str × ℤ)) {s s' : State}
    (hids : ValidIds t.id2Path F L hist) (h : t.puts E env hist s = some (t', s')) (q : List ℕ)
    (hqL : q.length < L) (hq : touched (byPath t.id2Path hist) q) :
    ∃ x, Vertex.fromBytes E (s'.db (keyOf q)) = some x ∧
      x.sum = intToZr (amountBelow (byPath t.id2Path hist) q) ∧
      (∀ k : UInt16, touched (byPath t.id2Path hist) (q ++ [k.toNat]) →
        x.values k = some (intToZr (amountBelow (byPath t.id2Path hist) (q ++ [k.toNat])))) ∧
      (∀ k : UInt16, ¬ touched (byPath t.id2Path hist) (q ++ [k.toNat]) → x.values k = none) := by
  obtain ⟨t1, s1, h1, -, -, hgood, -⟩ := puts_good hE henv α F ht.bound.le t ht.pp ht.fanOut ht.root L hL hist s hids
  rw [h, Option.some.injEq, Prod.mk.injEq] at h1
  obtain ⟨rfl, rfl⟩ := h1
  obtain ⟨v, u, hv, hu⟩ := find_touched ht.root hids h q hq
  have hhe : hist ≠ [] := by
    rintro rfl
    obtain ⟨e, he, -⟩ := hq
    simp [byPath] at he
  obtain ⟨v', hv', hg⟩ := hgood hhe
  rw [hv, Option.some.injEq] at hv'
  subst hv'
  have hgu := hg.find q hqL.le u hu
  obtain ⟨n, hn⟩ : ∃ n, L - q.length = n + 1 := ⟨L - q.length - 1, by omega⟩
  rw [hn, List.nil_append] at hgu
  obtain ⟨x, hx1, hx2, hx3⟩ := hgu.stored
  have hfind : ∀ i, Sparse.find (q ++ [i]) v = Sparse.descGet u.desc i := by
    intro i
    rw [Sparse.find_append, hu, Option.bind_some, Sparse.find_cons]
    cases Sparse.descGet u.desc i <;> rfl
  refine ⟨x, load_fromBytes hx1, ?_, ?_, ?_⟩
  · rw [hx2, total_eq ht.root hids h v hv (n + 1) q (by omega) u hu]
  · intro k hk
    obtain ⟨v2, w, hv2, hw⟩ := find_touched ht.root hids h _ hk
    rw [hv, Option.some.injEq] at hv2
    subst hv2
    rw [← total_eq ht.root hids h v hv n _ (by simp; omega) w hw]
    rw [hfind] at hw
    rw [hx3]
    unfold mapBelow childVals
    rw [if_pos (hgu.2.2.1 _ _ hw).1, hw]
    rfl
  · intro k hk
    rw [hx3]
    unfold mapBelow childVals
    split_ifs
    · cases hd : Sparse.descGet u.desc k.toNat with
      | none => rfl
      | some w =>
        rw [← hfind] at hd
        exact absurd (find_iff_touched ht.root hids h _ v w hv hd) hk
    · rfl

/-- C39: the root's sum is the total. -/
theorem C39_root_sum {E : Curve G1 G2 GT} (hE : E.Lawful) {env : Env} (henv : env.Lawful) {α : Zr} {F : ℕ}
    {t t' : Tree G1 G2 GT} (ht : NewTree E α F t) {L : ℕ} (hL : 1 ≤ L) (hist : List (Str × ℤ)) {s s' : State}
    (hids : ValidIds t.id2Path F L hist) (h : t.puts E env hist s = some (t', s')) (hne : hist ≠ []) :
    ∃ x, Vertex.fromBytes E (s'.db []) = some x ∧ x.sum = intToZr (totalAmount (byPath t.id2Path hist)) := by
  obtain ⟨x, h1, h2, -⟩ := C39_stored_sums hE henv ht hL hist hids h [] (show 0 < L by omega) (by
    cases hist with
    | nil => exact absurd rfl hne
    | cons e l => exact ⟨_, List.mem_cons_self, List.nil_prefix⟩)
  refine ⟨x, h1, ?_⟩
  rw [h2]
  unfold amountBelow totalAmount
  congr 2
  ext p
  simp

/-! ## C40: commitments -/

/-- C40, for the vertices the code gets right: after any history of writes, every stored vertex that is not
in the layer over the leaves, and every one in that layer with only one write below it, has
`V = Commit(values, sum, blinding factor)`; above that layer also `W = Commit(digests, 0, 0)`, where each
digest is the digest of the vertex stored for that child.  What is missing: vertices over the leaves that
were written more than once, see `C40_violated`. -/
theorem C40_commitments_partial {E : Curve G1 G2 GT} (hE : E.Lawful) {env : Env} (henv : env.Lawful) {α : Zr}
    {F : ℕ} {t t' : Tree G1 G2 GT} (ht : NewTree E α F t) {L : ℕ} (hL : 1 ≤ L) (hist : List (Str × ℤ))
    {s s' : State} (hids : ValidIds t.id2Path F L hist) (h : t.puts E env hist s = some (t', s')) (q : List ℕ)
    (hq : touched (byPath t.id2Path hist) q) :
    (q.length + 1 < L → ∃ x W, Vertex.fromBytes E (s'.db (keyOf q)) = some x ∧
      t.PP.commit (valuesOf F x) = some x.V ∧
      x.W = some W ∧ t.PP.commit (digestsOf F x) = some W ∧
      ∀ i : UInt16, touched (byPath t.id2Path hist) (q ++ [i.toNat]) →
        ∃ y, Vertex.fromBytes E (s'.db (keyOf (q ++ [i.toNat]))) = some y ∧ x.digests i = y.digest E) ∧
    (q.length + 1 = L → writesBelow (byPath t.id2Path hist) q = 1 →
      ∃ x, Vertex.fromBytes E (s'.db (keyOf q)) = some x ∧ t.PP.commit (valuesOf F x) = some x.V ∧
        x.W = none) := by
  obtain ⟨t1, s1, h1, -, -, hgood, -⟩ := puts_good hE henv α F ht.bound.le t ht.pp ht.fanOut ht.root L hL hist s hids
  rw [h, Option.some.injEq, Prod.mk.injEq] at h1
  obtain ⟨rfl, rfl⟩ := h1
  obtain ⟨v, u, hv, hu⟩ := find_touched ht.root hids h q hq
  have hhe : hist ≠ [] := by
    rintro rfl
    obtain ⟨e, he, -⟩ := hq
    simp [byPath] at he
  obtain ⟨v', hv', hg⟩ := hgood hhe
  rw [hv, Option.some.injEq] at hv'
  subst hv'
  have hFb := ht.bound
  have hvo : ∀ (vals : ℕ → Option Zr), ((List.range F).map fun i => (mapBelow F vals (UInt16.ofNat i)).getD 0)
      = (List.range F).map fun i => (vals i).getD 0 := by
    intro vals
    apply List.map_congr_left
    intro i hi
    rw [List.mem_range] at hi
    rw [mapBelow_ofNat _ (by omega), if_pos hi]
  constructor
  · intro hqL
    have hgu := hg.find q (by omega) u hu
    obtain ⟨n, hn⟩ : ∃ n, L - q.length = n + 1 + 1 := ⟨L - q.length - 2, by omega⟩
    rw [hn, List.nil_append] at hgu
    obtain ⟨-, -, hch, -, h5⟩ := hgu
    obtain ⟨bf, hl⟩ := h5 (by omega)
    refine ⟨_, _, load_fromBytes hl, ?_, rfl, ?_, ?_⟩
    · rw [ht.pp]
      unfold valuesOf innerVertex
      dsimp only
      rw [hvo]
      exact commit_eq E α (F + 2) _ (by simp) (by omega)
    · rw [ht.pp]
      unfold digestsOf innerVertex
      dsimp only
      rw [hvo]
      exact commit_eq E α (F + 2) _ (by simp) (by omega)
    · intro i hi
      obtain ⟨v2, w, hv2, hw⟩ := find_touched ht.root hids h _ hi
      rw [hv, Option.some.injEq] at hv2
      subst hv2
      have hw' : Sparse.descGet u.desc i.toNat = some w := by
        rw [Sparse.find_append, hu, Option.bind_some, Sparse.find_cons] at hw
        cases hd : Sparse.descGet u.desc i.toNat with
        | none => rw [hd] at hw; simp at hw
        | some w' => rw [hd] at hw; simpa using hw
      obtain ⟨hiF, hgw⟩ := hch _ _ hw'
      obtain ⟨y, hy, -, -⟩ := hgw.stored
      refine ⟨y, load_fromBytes hy, ?_⟩
      unfold innerVertex
      dsimp only
      unfold mapBelow childDigs
      rw [if_pos hiF, hw', digest_eq hE y, hy]
      rfl
  · intro hqL hone
    have hgu := hg.find q (by omega) u hu
    obtain ⟨n, hn⟩ : ∃ n, L - q.length = 0 + 1 := ⟨0, by omega⟩
    rw [hn, List.nil_append] at hgu
    obtain ⟨-, -, hch, h4, -⟩ := hgu
    obtain ⟨bf, V, hl, hV⟩ := h4 rfl
    refine ⟨_, load_fromBytes hl, ?_, rfl⟩
    have htouch : touches t.id2Path hist q ≤ 1 := by
      rw [← hone]
      unfold touches writesBelow byPath
      rw [List.countP_map]
      apply List.countP_mono_left
      intro e he
      obtain ⟨p, hp, hpL, -⟩ := hids e he
      simp only [hp, Option.getD_some, decide_eq_true_eq, Function.comp]
      rintro rfl
      exact List.dropLast_prefix p
    rw [ht.pp]
    unfold valuesOf leafVertex
    dsimp only
    rw [hvo, hV htouch]
    exact commit_eq E α (F + 2) _ (by simp) (by omega)

/-- C40 fails: writing the same non-zero amount twice under an identifier whose path does not end in 1
leaves a stored vertex whose `V` is not the commitment to its own contents. -/
theorem C40_violated {E : Curve G1 G2 GT} (hE : E.Lawful) (hgen : E.genG1 ≠ 0) {env : Env} (henv : env.Lawful)
    {α : Zr} (hα : α ≠ 0) {F : ℕ} {t : Tree G1 G2 GT} (ht : NewTree E α F t) (s : State) (id : Str)
    (q : List ℕ) (i : ℕ) (hp : t.id2Path id = some (q ++ [i])) (hlt : ∀ x ∈ q ++ [i], x < F) (hi : i ≠ 1)
    (b : ℤ) (hb : intToZr b ≠ 0) :
    ∃ t' s' x, t.puts E env [(id, b), (id, b)] s = some (t', s') ∧
      Vertex.fromBytes E (s'.db (keyOf q)) = some x ∧ t.PP.commit (valuesOf F x) ≠ some x.V := by
  have hids : ValidIds t.id2Path F (q.length + 1) [(id, b), (id, b)] := by
    intro e he
    simp only [List.mem_cons, List.not_mem_nil, or_false, or_self] at he
    subst he
    exact ⟨_, hp, by simp, hlt⟩
  have hids1 : ValidIds t.id2Path F (q.length + 1) [(id, b)] := fun e he => hids e (by simp at he; simp [he])
  obtain ⟨x, hx⟩ := second_write hE henv ht.bound.le ht.pp ht.fanOut ht.root s id q i hp hlt b hids hids1
  obtain ⟨t', s', hrun, hload⟩ := hx
  refine ⟨t', s', _, hrun, load_fromBytes hload, ?_⟩
  rw [ht.pp]
  intro hc
  have hiF : i < F := hlt i (by simp)
  have hFb := ht.bound
  set vals : ℕ → Option Zr := fun j => if j = i then some (intToZr b) else none with hvals
  have e1 : valuesOf F (leafVertex F x vals (com E α (valVec F vals x) + intToZr b • α ^ 2 • E.genG1))
      = valVec F vals x := by
    unfold valuesOf leafVertex valVec
    dsimp only
    congr 1
    apply List.map_congr_left
    intro j hj
    rw [List.mem_range] at hj
    rw [mapBelow_ofNat _ (by omega), if_pos hj]
  have e2 := commit_eq E α (F + 2) (valVec F vals x) (by simp [valVec]) (by omega)
  have hv : (Function.update vals i (some (intToZr b))) = vals := by
    funext j
    by_cases hj : j = i
    · subst hj; simp [hvals]
    · rw [Function.update_of_ne hj]
  have e3 : rewrittenV E α F vals i (intToZr b) (com E α (valVec F vals x))
      = com E α (valVec F vals x) + intToZr b • α ^ 2 • E.genG1 := by
    have hsum : ∑ j ∈ Finset.range F, (vals j).getD 0 = intToZr b := by
      rw [Finset.sum_eq_single i]
      · simp [hvals]
      · intro j _ hj; simp [hvals, hj]
      · intro hc; exact absurd (Finset.mem_range.2 hiF) hc
    have hcount : ((List.range F).countP fun j => (vals j).isSome) = 1 := by
      have : ((List.range F).countP fun j => (vals j).isSome) = (List.range F).count i := by
        rw [List.count]
        apply List.countP_congr
        intro j _
        by_cases hj : j = i
        · simp [hvals, hj]
        · simp [hvals, hj]
      rw [this, List.count_range, if_pos hiF]
    unfold rewrittenV
    dsimp only
    rw [hv, hsum, hcount]
    have hm : (((List.range (F + 2)).map fun j => if j < F then (vals j).getD 0 else 0) ++ [intToZr b]).getD 1 0 = 0 := by
      rw [List.getD_eq_getElem?_getD, List.getElem?_append_left (by simp)]
      simp [hvals, Ne.symm hi]
    rw [hm]
    have hvi : (vals i).getD 0 = intToZr b := by simp [hvals]
    rw [hvi]
    simp
  rw [hv, e3, e1, e2, Option.some.injEq] at hc
  have hc' : intToZr b • α ^ 2 • E.genG1 = 0 := by
    have : (leafVertex F x vals (com E α (valVec F vals x) + intToZr b • α ^ 2 • E.genG1)).V
      = com E α (valVec F vals x) + intToZr b • α ^ 2 • E.genG1 := rfl
    rw [this] at hc
    unfold com at hc
    exact left_eq_add.1 hc
  rw [smul_eq_zero, smul_eq_zero] at hc'
  rcases hc' with h | h | h
  · exact hb h
  · exact pow_ne_zero 2 hα h
  · exact hgen h

/-! ## C41: blinding factors -/

/-- C41: further writes do not change the blinding factor of a stored vertex. -/
theorem C41_blinding_factor_kept {E : Curve G1 G2 GT} (hE : E.Lawful) {env : Env} (henv : env.Lawful) {α : Zr}
    {F : ℕ} {t t1 t2 : Tree G1 G2 GT} (ht : NewTree E α F t) {L : ℕ} (hL : 1 ≤ L) (hist1 hist2 : List (Str × ℤ))
    {s s1 s2 : State} (hids : ValidIds t.id2Path F L (hist1 ++ hist2))
    (h1 : t.puts E env hist1 s = some (t1, s1)) (h2 : t1.puts E env hist2 s1 = some (t2, s2)) (q : List ℕ)
    (hqL : q.length < L) (hq : touched (byPath t.id2Path hist1) q) :
    ∃ x1 x2, Vertex.fromBytes E (s1.db (keyOf q)) = some x1 ∧ Vertex.fromBytes E (s2.db (keyOf q)) = some x2 ∧
      x1.blindingFactor = x2.blindingFactor := by
  obtain ⟨x1, hx1, -⟩ := C39_stored_sums hE henv ht hL hist1 (fun e he => hids e (by simp [he])) h1 q hqL hq
  refine ⟨x1, ?_⟩
  induction hist2 using List.reverseRecOn generalizing t2 s2 with
  | nil =>
    rw [vputs_nil, Option.some.injEq, Prod.mk.injEq] at h2
    rw [← h2.2]
    exact ⟨x1, hx1, hx1, rfl⟩
  | append_singleton hist2 e ih =>
    rw [vputs_concat] at h2
    obtain ⟨⟨t3, s3⟩, h3, h4⟩ := Option.bind_eq_some_iff.1 h2
    rw [← List.append_assoc] at hids
    obtain ⟨x3, -, hx3, hbf⟩ := ih (fun e he => hids e (by simp only [List.mem_append] at he ⊢; exact .inl he)) h3
    have hrun : t.puts E env (hist1 ++ hist2) s = some (t3, s3) := by
      unfold Tree.puts
      rw [List.foldlM_append]
      exact obind_step h1 h3
    obtain ⟨p, hp, -, -⟩ := hids e (by simp)
    have hq' : touched (byPath t.id2Path (hist1 ++ hist2)) q := by
      obtain ⟨e, he, hpre⟩ := hq
      exact ⟨e, by unfold byPath at he ⊢; rw [List.map_append]; exact List.mem_append_left _ he, hpre⟩
    obtain ⟨-, b2, b3⟩ := put_blinding hE henv ht.bound.le ht.pp ht.fanOut ht.root hL hids hrun h4 p hp
    by_cases hpre : q <+: p
    · obtain ⟨x, hx, hx', -⟩ := b3 q hpre hqL
      obtain ⟨x0, hx0, hb0⟩ := hx' hq'
      have := load_fromBytes hx0
      rw [hx3, Option.some.injEq] at this
      subst this
      exact ⟨x, hx1, load_fromBytes hx, by rw [hbf, hb0]⟩
    · exact ⟨x3, hx1, by rw [b2 q hpre]; exact hx3, hbf⟩

/-- C41: the blinding factor of every stored vertex is one of the scalars drawn during the history, and no
two vertices use the same draw. -/
theorem C41_draws_not_shared {E : Curve G1 G2 GT} (hE : E.Lawful) {env : Env} (henv : env.Lawful) {α : Zr}
    {F : ℕ} {t t' : Tree G1 G2 GT} (ht : NewTree E α F t) {L : ℕ} (hL : 1 ≤ L) (hist : List (Str × ℤ))
    {s s' : State} (hids : ValidIds t.id2Path F L hist) (h : t.puts E env hist s = some (t', s')) :
    ∃ T : List ℕ → ℕ,
      (∀ q, q.length < L → touched (byPath t.id2Path hist) q →
        s.tick ≤ T q ∧ T q < s'.tick ∧
        ∃ x, Vertex.fromBytes E (s'.db (keyOf q)) = some x ∧ x.blindingFactor = env.rand (T q)) ∧
      (∀ q r, q.length < L → r.length < L → touched (byPath t.id2Path hist) q →
        touched (byPath t.id2Path hist) r → T q = T r → q = r) := by
  classical
  suffices H : ∃ T : List ℕ → ℕ, s.tick ≤ s'.tick ∧
      (∀ q, q.length < L → touched (byPath t.id2Path hist) q →
        s.tick ≤ T q ∧ T q < s'.tick ∧
        ∃ x, load E s'.db (keyOf q) = some x ∧ x.blindingFactor = env.rand (T q)) ∧
      (∀ q r, q.length < L → r.length < L → touched (byPath t.id2Path hist) q →
        touched (byPath t.id2Path hist) r → T q = T r → q = r) by
    obtain ⟨T, -, h1, h2⟩ := H
    refine ⟨T, fun q hq hqt => ?_, h2⟩
    obtain ⟨a, b, x, hx, hb⟩ := h1 q hq hqt
    exact ⟨a, b, x, load_fromBytes hx, hb⟩
  induction hist using List.reverseRecOn generalizing t' s' with
  | nil =>
    rw [vputs_nil, Option.some.injEq, Prod.mk.injEq] at h
    have hnt : ∀ q, ¬ touched (byPath t.id2Path []) q := by
      rintro q ⟨e, he, -⟩
      simp [byPath] at he
    exact ⟨fun _ => 0, by rw [h.2], fun q _ hq => absurd hq (hnt q), fun q _ _ _ hq => absurd hq (hnt q)⟩
  | append_singleton hist e ih =>
    rw [vputs_concat] at h
    obtain ⟨⟨t1, s1⟩, h1, h2⟩ := Option.bind_eq_some_iff.1 h
    obtain ⟨T, T0, T1, T2⟩ := ih (fun e he => hids e (by simp [he])) h1
    obtain ⟨p, hp, hpL, -⟩ := hids e (by simp)
    obtain ⟨b1, b2, b3⟩ := put_blinding hE henv ht.bound.le ht.pp ht.fanOut ht.root hL hids h1 h2 p hp
    have htou : ∀ q, touched (byPath t.id2Path (hist ++ [e])) q ↔ touched (byPath t.id2Path hist) q ∨ q <+: p := by
      intro q
      have hb : byPath t.id2Path (hist ++ [e]) = byPath t.id2Path hist ++ [(p, e.2)] := by simp [byPath, hp]
      rw [hb]
      unfold touched
      constructor
      · rintro ⟨e', he', hpre⟩
        rcases List.mem_append.1 he' with he' | he'
        · exact .inl ⟨e', he', hpre⟩
        · simp only [List.mem_singleton] at he'
          subst he'
          exact .inr hpre
      · rintro (⟨e', he', hpre⟩ | hpre)
        · exact ⟨e', by simp [he'], hpre⟩
        · exact ⟨(p, e.2), by simp, hpre⟩
    refine ⟨fun q => if touched (byPath t.id2Path hist) q then T q else s1.tick + (L - 1 - q.length), by omega, ?_, ?_⟩
    · intro q hqL hqt
      rw [htou] at hqt
      by_cases hq0 : touched (byPath t.id2Path hist) q
      · obtain ⟨c1, c2, x, hx, hbf⟩ := T1 q hqL hq0
        simp only [if_pos hq0]
        refine ⟨c1, by omega, ?_⟩
        by_cases hpre : q <+: p
        · obtain ⟨y, hy, hy', -⟩ := b3 q hpre hqL
          obtain ⟨x0, hx0, hb0⟩ := hy' hq0
          rw [hx, Option.some.injEq] at hx0
          subst hx0
          exact ⟨y, hy, by rw [hb0, hbf]⟩
        · exact ⟨x, by rw [load_congr E (b2 q hpre)]; exact hx, hbf⟩
      · simp only [if_neg hq0]
        have hpre := hqt.resolve_left hq0
        obtain ⟨y, hy, -, hy'⟩ := b3 q hpre hqL
        exact ⟨by omega, by omega, y, hy, hy' hq0⟩
    · intro q r hqL hrL hqt hrt heq
      rw [htou] at hqt hrt
      by_cases hq0 : touched (byPath t.id2Path hist) q
      · by_cases hr0 : touched (byPath t.id2Path hist) r
        · simp only [if_pos hq0, if_pos hr0] at heq
          exact T2 q r hqL hrL hq0 hr0 heq
        · simp only [if_pos hq0, if_neg hr0] at heq
          have := (T1 q hqL hq0).2.1
          omega
      · by_cases hr0 : touched (byPath t.id2Path hist) r
        · simp only [if_neg hq0, if_pos hr0] at heq
          have := (T1 r hrL hr0).2.1
          omega
        · simp only [if_neg hq0, if_neg hr0] at heq
          have h3 := hqt.resolve_left hq0
          have h4 := hrt.resolve_left hr0
          have hlen : q.length = r.length := by omega
          obtain ⟨a, rfl⟩ := h3
          have h5 := List.prefix_append q a
          exact (List.prefix_of_prefix_length_le h5 h4 hlen.le).eq_of_length hlen

/-! ## C42: `Serialize` -/

/-- C42: the output of `Serialize` does not depend on the amounts.  Any two histories that write under
the same identifiers, with whatever amounts, randomness and database, give the same output. -/
theorem C42_serialize_ignores_amounts {E : Curve G1 G2 GT} {env env' : Env} {t t1 t2 : Tree G1 G2 GT} (h1 h2 : List (Str × ℤ))
    (hids : h1.map Prod.fst = h2.map Prod.fst) {s s' s1 s2 : State}
    (hr1 : t.puts E env h1 s = some (t1, s1)) (hr2 : t.puts E env' h2 s' = some (t2, s2)) :
    t1.serialize = t2.serialize := by
  obtain ⟨-, -, h3⟩ := strip_puts h1 h2 hids hr1 hr2
  unfold Tree.serialize
  cases hu1 : t1.root with
  | none =>
    cases hu2 : t2.root with
    | none => rfl
    | some w => rw [hu1, hu2] at h3; simp at h3
  | some w1 =>
    cases hu2 : t2.root with
    | none => rw [hu1, hu2] at h3; simp at h3
    | some w2 =>
      rw [hu1, hu2, Option.map_some, Option.map_some, Option.some.injEq] at h3
      simp only [Option.pure_def, Option.bind_eq_bind, Option.bind_some, Option.some.injEq]
      rw [serialize_strip _ w1 [] le_rfl, serialize_strip _ w2 [] le_rfl, h3]

/-- C42 fails: two trees with different liabilities under the same identifiers, the stored root of one
carrying the sum 1 and that of the other the sum 2, have the same output. -/
theorem C42_violated {E : Curve G1 G2 GT} (hE : E.Lawful) {env : Env} (henv : env.Lawful) {α : Zr} {F : ℕ}
    {t : Tree G1 G2 GT} (ht : NewTree E α F t) (s : State) (id : Str) (p : List ℕ) (hp : t.id2Path id = some p)
    (hne : p ≠ []) (hlt : ∀ x ∈ p, x < F) :
    ∃ t1 s1 x1 t2 s2 x2, t.puts E env [(id, 1)] s = some (t1, s1) ∧ t.puts E env [(id, 2)] s = some (t2, s2) ∧
      Vertex.fromBytes E (s1.db []) = some x1 ∧ Vertex.fromBytes E (s2.db []) = some x2 ∧
      x1.sum ≠ x2.sum ∧ t1.serialize = t2.serialize := by
  have hv : ∀ n : ℤ, ValidIds t.id2Path F p.length [(id, n)] := by
    intro n e he
    rw [List.mem_singleton] at he
    subst he
    exact ⟨p, hp, rfl, hlt⟩
  have hL : 1 ≤ p.length := List.length_pos_iff.2 hne
  obtain ⟨t1, s1, h1⟩ := C39_writes_return hE henv ht hL _ s (hv 1)
  obtain ⟨t2, s2, h2⟩ := C39_writes_return hE henv ht hL _ s (hv 2)
  obtain ⟨x1, hx1, hs1⟩ := C39_root_sum hE henv ht hL _ (hv 1) h1 (by simp)
  obtain ⟨x2, hx2, hs2⟩ := C39_root_sum hE henv ht hL _ (hv 2) h2 (by simp)
  refine ⟨t1, s1, x1, t2, s2, x2, h1, h2, hx1, hx2, ?_, C42_serialize_ignores_amounts [(id, 1)] [(id, 2)] rfl h1 h2⟩
  rw [hs1, hs2]
  have ha : ∀ n : ℤ, totalAmount (byPath t.id2Path [(id, n)]) = n := by
    intro n
    simp [totalAmount, byPath, hp, latest, lastPut]
  rw [ha, ha]
  unfold intToZr
  intro hc
  have : (1 : Zr) = 2 := by exact_mod_cast hc
  exact one_ne_zero (α := Zr) (by linear_combination (-1 : Zr) * this)

/-- C42: on an empty tree `Serialize` panics. -/
theorem C42_panics_on_empty (t : Tree G1 G2 GT) (h : t.root = none) : t.serialize = none := by
  unfold Tree.serialize; rw [h]; rfl

/-! ## The hypotheses can be met -/

example : ∃ t' s', toyTree.puts toyCurve toyEnv toyHist ⟨fun _ => [], 0⟩ = some (t', s') :=
  C39_writes_return toyCurve_lawful toyEnv_lawful toyTree_new (L := 3) (by decide) toyHist _ toyHist_valid

-- three writes below `0, 1` leave the sum 35 there, and the root has 42
example : amountBelow (byPath toyTree.id2Path toyHist) [0, 1] = 35 := by decide
example : totalAmount (byPath toyTree.id2Path toyHist) = 42 := by decide
example : touched (byPath toyTree.id2Path toyHist) [0, 1] := ⟨([0, 1, 2], 10), by decide, by decide⟩
example : writesBelow (byPath toyTree.id2Path toyHist) [2, 2] = 1 := by decide

-- C40_violated and C42_violated apply to this tree and `012`, 10
example : ∃ t' s' x, toyTree.puts toyCurve toyEnv [(['0', '1', '2'], 10), (['0', '1', '2'], 10)] ⟨fun _ => [], 0⟩
      = some (t', s') ∧ Vertex.fromBytes toyCurve (s'.db (keyOf [0, 1])) = some x ∧
      toyTree.PP.commit (valuesOf 3 x) ≠ some x.V :=
  C40_violated toyCurve_lawful (by exact one_ne_zero) toyEnv_lawful two_ne_zero_zr toyTree_new _ _ [0, 1] 2 rfl
    (by decide) (by decide) 10 (by
      have := natCast_ne_zero_of_lt (n := 10) (by decide) (by unfold order; decide)
      unfold intToZr; exact_mod_cast this)

example : ∃ t1 s1 x1 t2 s2 x2, toyTree.puts toyCurve toyEnv [(['0', '1', '2'], 1)] ⟨fun _ => [], 0⟩ = some (t1, s1) ∧
      toyTree.puts toyCurve toyEnv [(['0', '1', '2'], 2)] ⟨fun _ => [], 0⟩ = some (t2, s2) ∧
      Vertex.fromBytes toyCurve (s1.db []) = some x1 ∧ Vertex.fromBytes toyCurve (s2.db []) = some x2 ∧
      x1.sum ≠ x2.sum ∧ t1.serialize = t2.serialize :=
  C42_violated toyCurve_lawful toyEnv_lawful toyTree_new _ _ [0, 1, 2] rfl (by decide) (by decide)

end PoL.Props
