import Verif.Proofs.VerkleBlind

/-! The second update of a vertex over the leaves; serialization. -/

set_option linter.unusedSectionVars false

namespace PoL.Verkle
open PoL.PP Sparse Spec

variable {G1 G2 GT : Type} [AddCommGroup G1] [Module Zr G1] [AddCommGroup G2] [Module Zr G2]
  [AddCommGroup GT] [Module Zr GT] [DecidableEq G1] [DecidableEq GT]

/-- The commitment that `updateLayerAboveLeaves` computes on a vertex that exists already. -/
def rewrittenV (E : Curve G1 G2 GT) (α : Zr) (F : ℕ) (vals : ℕ → Option Zr) (p : ℕ) (b : Zr) (V : G1) : G1 :=
  let vals' := Function.update vals p (some b)
  let k := (List.range F).countP fun i => (vals' i).isSome
  let m := ((List.range (F + 2)).map fun i => if i < F then (vals i).getD 0 else 0) ++
    [∑ i ∈ Finset.range F, (vals' i).getD 0]
  V + (b - (vals p).getD 0) • α ^ (p + 1) • E.genG1
    + ((∑ i ∈ Finset.range F, (vals' i).getD 0) - m.getD k 0) • α ^ (k + 1) • E.genG1

theorem putAt_leaf_old {E : Curve G1 G2 GT} (hE : E.Lawful) {env : Env} (henv : env.Lawful) {α : Zr}
    {F : ℕ} (hF : F + 2 ≤ 65536) {n : ℤ} {path pre : List ℕ} {v v' : Sparse.Vertex Data} {s s' : State} (p : ℕ)
    (h : putAt F (updateInnerVertex E (newPublicParams E α (F + 2)) env) (some (.amount n)) (path ++ [p])
      (keyOf pre) v s = some (v', s'))
    (hp : p < F) (hk : KeysOk pre v) (hl : Live v path) (bf : Zr) (vals : ℕ → Option Zr) (V : G1)
    (hx : load E s.db (keyOf (pre ++ path)) = some (leafVertex F bf vals V)) :
    load E s'.db (keyOf (pre ++ path)) = some (leafVertex F bf (Function.update vals p (some (intToZr n)))
      (rewrittenV E α F vals p (intToZr n) V)) := by
  induction path generalizing pre v v' s s' with
  | nil =>
    rw [List.nil_append] at h
    rw [List.append_nil] at hx ⊢
    obtain ⟨child', s1, d, h1, -, h3, rfl⟩ := putAt_cons h
    obtain ⟨hc, rfl⟩ := putAt_nil h1
    obtain ⟨u, hu, hd⟩ := hl
    rw [find_nil, Option.some.injEq] at hu
    subst hu
    have hkey : v.key = keyOf pre := by simpa using hk [] v rfl
    obtain ⟨nd, hnd⟩ := Option.ne_none_iff_exists'.1 hd
    have hold := updateLeaf_old E α F hF env (keyOf pre) nd
      (fun i => (descGet (descSet v.desc p child') i).bind Sparse.Vertex.data) p hp s1 bf vals V hx n
      (by simp only [descGet_descSet, if_true, Option.bind_some, hc]; rfl)
    dsimp only at hold
    unfold updateInnerVertex at h3
    rw [hnd, hkey] at h3
    have h3' := h3.symm.trans hold
    simp only [Option.some.injEq, Prod.mk.injEq] at h3'
    rw [h3'.2, load_store_self hE henv]
    rfl
  | cons a path ih =>
    rw [List.cons_append] at h
    obtain ⟨child', s1, d, h1, -, h3, rfl⟩ := putAt_cons h
    rw [childKey_keyOf] at h1
    have hkc := hk.child a
    rw [childKey_keyOf] at hkc
    have e : pre ++ a :: path = pre ++ [a] ++ path := by simp
    rw [e] at hx ⊢
    have hlc : Live ((descGet v.desc a).getD (.mk (keyOf (pre ++ [a])) none [])) path := by
      obtain ⟨u, hu, hd⟩ := hl
      rw [find_cons] at hu
      obtain ⟨w, hw, hu⟩ := Option.bind_eq_some_iff.1 hu
      exact ⟨u, by rw [hw, Option.getD_some]; exact hu, hd⟩
    have hrec := ih h1 hkc hlc hx
    obtain ⟨x, rfl, -, -, -⟩ := update_blinding h3
    have hkey : v.key = keyOf pre := by simpa using hk [] v rfl
    rw [load_congr E (store_db _ _ _ _ _ _ ?_)]
    · exact hrec
    · rw [hkey]
      intro hc
      have := congrArg List.length (keyOf_injective hc)
      simp at this

/-- The commitment of one value, changed at one place. -/
theorem expo_valVec (α : Zr) (F : ℕ) (vals : ℕ → Option Zr) (bf : Zr) :
    expo α (valVec F vals bf) = (∑ i ∈ Finset.range F, (vals i).getD 0 * α ^ (i + 1))
      + (∑ i ∈ Finset.range F, (vals i).getD 0) * α ^ (F + 1) + bf * α ^ (F + 2) := by
  unfold expo valVec
  have hlen : (((List.range F).map fun i => (vals i).getD 0) ++
      [∑ i ∈ Finset.range F, (vals i).getD 0, bf]).length = F + 2 := by simp
  rw [hlen, Finset.sum_range_succ, Finset.sum_range_succ]
  congr 1
  · congr 1
    · refine Finset.sum_congr rfl fun i hi => ?_
      rw [Finset.mem_range] at hi
      rw [List.getD_eq_getElem?_getD, List.getElem?_append_left (by simpa using hi)]
      simp [hi]
    · rw [List.getD_eq_getElem?_getD, List.getElem?_append_right (by simp)]
      simp
  · rw [List.getD_eq_getElem?_getD, List.getElem?_append_right (by simp)]
    simp

/-! ## Serialization -/

/-- The tree without its data. -/
def strip {D : Type} : Sparse.Vertex D → Sparse.Vertex Unit
  | .mk k _ desc => .mk k none (desc.attach.map fun e => (e.1.1, strip e.1.2))
termination_by v => sizeOf v
decreasing_by
  have h1 := List.sizeOf_lt_of_mem e.2
  have h2 : sizeOf e.1.2 < sizeOf e.1 := by cases e.1; simp
  simp; omega

theorem strip_mk {D : Type} (k : Str) (d : Option D) (desc : List (ℕ × Sparse.Vertex D)) :
    strip (.mk k d desc) = .mk k none (desc.map fun e => (e.1, strip e.2)) := by
  rw [strip]
  congr 1
  exact List.attach_map_val (f := fun e : ℕ × Sparse.Vertex D => (e.1, strip e.2)) (l := desc)

theorem serializeVertex_mk {D : Type} (f : Option D → Bytes) (path : Str) (k : Str) (d : Option D)
    (desc : List (ℕ × Sparse.Vertex D)) :
    serializeVertex f path (.mk k d desc) = header (rawVertexBytes path (f d)).length ++ rawVertexBytes path (f d)
      ++ desc.flatMap fun e => serializeVertex f (childKey path e.1) e.2 := by
  rw [serializeVertex]
  simp only [List.append_cancel_left_eq]
  unfold List.flatMap
  congr 1
  exact List.attach_map_val (f := fun e : ℕ × Sparse.Vertex D => serializeVertex f (childKey path e.1) e.2) (l := desc)

theorem serialize_strip (n : ℕ) : ∀ (v : Sparse.Vertex Data) (path : Str), sizeOf v ≤ n →
    serializeVertex vertexToBytes path v = serializeVertex (fun _ => []) path (strip v) := by
  induction n with
  | zero => intro v path h; cases v; simp at h
  | succ n ih =>
    intro v path h
    cases v with
    | mk k d desc =>
      rw [strip_mk, serializeVertex_mk, serializeVertex_mk]
      have hd : vertexToBytes d = [] := by
        cases d with
        | none => rfl
        | some d => cases d <;> rfl
      rw [hd, List.flatMap_map]
      congr 1
      apply List.flatMap_congr
      intro e he
      apply ih
      have h1 := List.sizeOf_lt_of_mem he
      have h2 : sizeOf e.2 < sizeOf e := by cases e; simp
      simp at h
      omega

/-- Insertion without data. -/
def stripPut : List ℕ → Str → Sparse.Vertex Unit → Sparse.Vertex Unit
  | [], _, v => .mk v.key none v.desc
  | p :: rest, ps, v =>
    .mk v.key none (descSet v.desc p
      (stripPut rest (childKey ps p) ((descGet v.desc p).getD (.mk (childKey ps p) none []))))

theorem descGet_map {α β : Type} (f : α → β) (l : List (ℕ × α)) (p : ℕ) :
    descGet (l.map fun e => (e.1, f e.2)) p = (descGet l p).map f := by
  induction l with
  | nil => rfl
  | cons a l ih =>
    obtain ⟨k, u⟩ := a
    simp only [List.map_cons, descGet, ih]
    split_ifs <;> rfl

theorem descSet_map {α β : Type} (f : α → β) (l : List (ℕ × α)) (p : ℕ) (u : α) :
    descSet (l.map fun e => (e.1, f e.2)) p (f u) = (descSet l p u).map fun e => (e.1, f e.2) := by
  induction l with
  | nil => rfl
  | cons a l ih =>
    obtain ⟨k, w⟩ := a
    simp only [List.map_cons, descSet, ih]
    split_ifs <;> rfl

theorem strip_key {D : Type} (v : Sparse.Vertex D) : (strip v).key = v.key := by
  cases v; rw [strip_mk]; rfl

theorem strip_desc {D : Type} (v : Sparse.Vertex D) : (strip v).desc = v.desc.map fun e => (e.1, strip e.2) := by
  cases v; rw [strip_mk]; rfl

theorem strip_putAt {D σ : Type} {F : ℕ} {upd : Update D σ} {data : Option D} {path : List ℕ} {ps : Str}
    {v v' : Sparse.Vertex D} {s s' : σ} (h : putAt F upd data path ps v s = some (v', s')) :
    strip v' = stripPut path ps (strip v) := by
  induction path generalizing ps v v' s s' with
  | nil =>
    obtain ⟨rfl, -⟩ := putAt_nil h
    rw [strip_mk, stripPut, strip_key, strip_desc]
  | cons p rest ih =>
    obtain ⟨child', s1, d, h1, -, -, rfl⟩ := putAt_cons h
    have := ih h1
    rw [strip_mk, stripPut, strip_key, strip_desc, descGet_map, ← descSet_map, this]
    congr 3
    cases descGet v.desc p with
    | none => rw [Option.getD_none, strip_mk]; rfl
    | some u => rfl

/-- The shape of the tree after writes depends on the identifiers only. -/
theorem strip_puts {E : Curve G1 G2 GT} {env : Env} {t t1 t2 : Tree G1 G2 GT} (h1 h2 : List (Str × ℤ))
    (hids : h1.map Prod.fst = h2.map Prod.fst) {s s' s1 s2 : State} {env' : Env}
    (hr1 : t.puts E env h1 s = some (t1, s1)) (hr2 : t.puts E env' h2 s' = some (t2, s2)) :
    t1.id2Path = t.id2Path ∧ t2.id2Path = t.id2Path ∧ t1.root.map strip = t2.root.map strip := by
  induction h1 using List.reverseRecOn generalizing h2 t1 t2 s1 s2 with
  | nil =>
    have : h2 = [] := by simpa using hids.symm
    subst this
    rw [vputs_nil, Option.some.injEq, Prod.mk.injEq] at hr1 hr2
    rw [← hr1.1, ← hr2.1]
    exact ⟨rfl, rfl, rfl⟩
  | append_singleton h1 e1 ih =>
    obtain ⟨h2', e2, rfl⟩ : ∃ h e, h2 = h ++ [e] := by
      rcases List.eq_nil_or_concat h2 with rfl | ⟨h, e, rfl⟩
      · simp at hids
      · exact ⟨h, e, by simp⟩
    rw [List.map_append, List.map_append] at hids
    obtain ⟨hi1, hi2⟩ := List.append_inj' hids rfl
    have hi2 : e1.1 = e2.1 := by simpa using hi2
    rw [vputs_concat] at hr1 hr2
    obtain ⟨⟨u1, w1⟩, a1, b1⟩ := Option.bind_eq_some_iff.1 hr1
    obtain ⟨⟨u2, w2⟩, a2, b2⟩ := Option.bind_eq_some_iff.1 hr2
    obtain ⟨i1, i2, i3⟩ := ih h2' hi1 a1 a2
    unfold Tree.put at b1 b2
    obtain ⟨⟨t3, s3⟩, c1, d1⟩ := obind_elim b1
    obtain ⟨⟨t4, s4⟩, c2, d2⟩ := obind_elim b2
    simp only [Option.pure_def, Option.some.injEq, Prod.mk.injEq] at d1 d2
    obtain ⟨p1, r1, q1, k1, rfl⟩ := put_some c1
    obtain ⟨p2, r2, q2, k2, rfl⟩ := put_some c2
    have hp : p1 = p2 := by
      have x1 : u1.id2Path e1.1 = some p1 := q1
      have x2 : u2.id2Path e2.1 = some p2 := q2
      rw [i1, hi2] at x1
      rw [i2] at x2
      exact Option.some.inj (x1.symm.trans x2)
    subst hp
    rw [← d1.1, ← d2.1]
    refine ⟨i1, i2, ?_⟩
    simp only [Option.map_some, Option.some.injEq]
    rw [strip_putAt k1, strip_putAt k2]
    congr 1
    have e1 : (u1.sparse E env).root = u1.root := rfl
    have e2 : (u2.sparse E env').root = u2.root := rfl
    rw [e1, e2]
    cases hu1 : u1.root with
    | none =>
      cases hu2 : u2.root with
      | none => rfl
      | some w => rw [hu1, hu2] at i3; simp at i3
    | some w1 =>
      cases hu2 : u2.root with
      | none => rw [hu1, hu2] at i3; simp at i3
      | some w2 => rw [hu1, hu2] at i3; simpa using i3

/-! ## Two writes under one identifier, and the keys a write changes -/

theorem put_footprint {E : Curve G1 G2 GT} (hE : E.Lawful) {env : Env} (henv : env.Lawful)
    {t t1 t2 : Tree G1 G2 GT} (hroot : t.root = none) {hist : List (Str × ℤ)} {e : Str × ℤ} {s s1 s2 : State}
    (h1 : t.puts E env hist s = some (t1, s1)) (h2 : t1.put E env e.1 e.2 s1 = some (t2, s2)) (p : List ℕ)
    (hp : t.id2Path e.1 = some p) (k : Str)
    (hk : ∀ q, q <+: p → q.length < p.length → k ≠ keyOf q) : s2.db k = s1.db k := by
  have hh1 := h1
  rw [vputs_sparse] at hh1
  obtain ⟨⟨ts, s3⟩, h3, h4⟩ := Option.map_eq_some_iff.1 hh1
  simp only [Prod.mk.injEq] at h4
  obtain ⟨h4, rfl⟩ := h4
  have hkk := keysOk_puts (t0 := t.sparse E env) hroot _ _ _ h3
  have hrt : t1.root = ts.root := by rw [← h4]
  have hid : t1.id2Path = t.id2Path := by rw [← h4]
  unfold Tree.put at h2
  obtain ⟨⟨t3, s4⟩, h5, h6⟩ := obind_elim h2
  simp only [Option.pure_def, Option.some.injEq, Prod.mk.injEq] at h6
  obtain ⟨-, rfl⟩ := h6
  obtain ⟨path, root', hp'', hput, -⟩ := put_some h5
  have : path = p := by
    have : t1.id2Path e.1 = some path := hp''
    rw [hid, hp] at this
    exact (Option.some.inj this).symm
  subst this
  have hput' : putAt t1.fanOut (updateInnerVertex E t1.PP env) (some (.amount e.2)) path (keyOf [])
      (ts.root.getD (.mk [] none [])) s3 = some (root', s4) := by
    rw [← hrt]; exact hput
  obtain ⟨-, b2, -⟩ := putAt_blinding hE henv hput' (by simpa using hkk)
  exact b2 k (fun r hr hl => by rw [List.nil_append]; exact hk r hr hl)

theorem second_write {E : Curve G1 G2 GT} (hE : E.Lawful) {env : Env} (henv : env.Lawful) {α : Zr} {F : ℕ}
    (hF : F + 2 ≤ 65536) {t : Tree G1 G2 GT} (hPP : t.PP = newPublicParams E α (F + 2))
    (hfan : t.fanOut = F) (hroot : t.root = none) (s : State) (id : Str) (q : List ℕ) (i : ℕ)
    (hp : t.id2Path id = some (q ++ [i])) (hlt : ∀ x ∈ q ++ [i], x < F) (b : ℤ)
    (hids : ValidIds t.id2Path F (q.length + 1) [(id, b), (id, b)])
    (hids1 : ValidIds t.id2Path F (q.length + 1) [(id, b)]) :
    let vals : ℕ → Option Zr := fun j => if j = i then some (intToZr b) else none
    ∃ bf t' s', t.puts E env [(id, b), (id, b)] s = some (t', s') ∧
      load E s'.db (keyOf q) = some (leafVertex F bf (Function.update vals i (some (intToZr b)))
        (rewrittenV E α F vals i (intToZr b) (com E α (valVec F vals bf)))) := by
  intro vals
  have hL : 1 ≤ q.length + 1 := by omega
  obtain ⟨t1, s1, h1, h1t, -, h1g, -⟩ := puts_good hE henv α F hF t hPP hfan hroot _ hL [(id, b)] s hids1
  obtain ⟨t2, s2, h2, -, -, -, -⟩ := puts_good hE henv α F hF t hPP hfan hroot _ hL [(id, b), (id, b)] s hids
  obtain ⟨v, hv, hg⟩ := h1g (by simp)
  have hb : byPath t.id2Path [(id, b)] = [(q ++ [i], b)] := by simp [byPath, hp]
  obtain ⟨v', u, hv', hu⟩ := find_touched hroot hids1 h1 q (by
    rw [hb]; exact ⟨(q ++ [i], b), by simp, List.prefix_append _ _⟩)
  rw [hv, Option.some.injEq] at hv'
  subst hv'
  have hgu := hg.find q (by omega) u hu
  rw [show q.length + 1 - q.length = 0 + 1 by omega, List.nil_append] at hgu
  obtain ⟨-, hud, -, h4, -⟩ := hgu
  obtain ⟨bf, V, hl, hV⟩ := h4 rfl
  have hV := hV (by simp [touches, hp])
  subst hV
  have hcv : childVals F 0 u.desc = vals := by
    funext j
    have hfj : Sparse.find (q ++ [j]) v = descGet u.desc j := by
      rw [Sparse.find_append, hu, Option.bind_some, Sparse.find_cons]
      cases descGet u.desc j <;> rfl
    have hld := leaf_data hroot hids1 h1 (q ++ [j]) (by simp)
    rw [hv, Option.bind_some, hfj, hb] at hld
    unfold childVals
    by_cases hj : j = i
    · subst hj
      have hl1 : lastPut [(q ++ [j], b)] (q ++ [j]) = some b := by simp [lastPut]
      rw [hl1] at hld
      cases hd : descGet u.desc j with
      | none => rw [hd] at hld; simp at hld
      | some w =>
        rw [hd, Option.map_some, Option.map_some, Option.some.injEq] at hld
        simp [vals, total, hld]
    · have hl1 : lastPut [(q ++ [i], b)] (q ++ [j]) = none := by simp [lastPut, Ne.symm hj]
      rw [hl1, Option.map_none, Option.map_eq_none_iff] at hld
      rw [hld]
      simp [vals, hj]
  rw [hcv] at hl
  have h12 : t1.put E env id b s1 = some (t2, s2) := by
    have : [(id, b), (id, b)] = [(id, b)] ++ [(id, b)] := rfl
    rw [this, vputs_concat, h1, Option.bind_some] at h2
    exact h2
  refine ⟨bf, t2, s2, h2, ?_⟩
  have hid : t1.id2Path = t.id2Path := by rw [h1t]
  have hf1 : t1.fanOut = F := by rw [h1t]; exact hfan
  have hp1 : t1.PP = newPublicParams E α (F + 2) := by rw [h1t]; exact hPP
  have hh1 := h1
  rw [vputs_sparse] at hh1
  obtain ⟨⟨ts, s3⟩, h3, h4'⟩ := Option.map_eq_some_iff.1 hh1
  simp only [Prod.mk.injEq] at h4'
  obtain ⟨h4', rfl⟩ := h4'
  have hkk := keysOk_puts (t0 := t.sparse E env) hroot _ _ _ h3
  have hrt : t1.root = ts.root := by rw [← h4']
  unfold Tree.put at h12
  obtain ⟨⟨t3, s4⟩, h5, h6⟩ := obind_elim h12
  simp only [Option.pure_def, Option.some.injEq, Prod.mk.injEq] at h6
  obtain ⟨-, rfl⟩ := h6
  obtain ⟨path, root', hp'', hput, -⟩ := put_some h5
  have : path = q ++ [i] := by
    have : t1.id2Path id = some path := hp''
    rw [hid, hp] at this
    exact (Option.some.inj this).symm
  subst this
  have hput' : putAt F (updateInnerVertex E (newPublicParams E α (F + 2)) env) (some (.amount b)) (q ++ [i]) (keyOf [])
      v s3 = some (root', s4) := by
    have e1 : (t1.sparse E env).root.getD (.mk [] none []) = v := by
      have : (t1.sparse E env).root = t1.root := rfl
      rw [this, hv]; rfl
    rw [e1] at hput
    have hput2 : putAt t1.fanOut (updateInnerVertex E t1.PP env) (some (.amount b)) (q ++ [i]) (keyOf [])
      v s3 = some (root', s4) := hput
    rw [hf1, hp1] at hput2
    exact hput2
  have := putAt_leaf_old hE henv hF i hput' (hlt i (by simp)) (by
    have := hkk; rw [← hrt, hv] at this; simpa using this) ⟨u, hu, by rw [hud]; simp⟩ bf vals _ (by
      rw [List.nil_append]; exact hl)
  rw [List.nil_append] at this
  exact this

end PoL.Verkle
