import Verif.Spec.Tree
import Verif.Proofs.Vec

/-! Helper lemmas about the generic tree. -/

namespace PoL.Sparse
open Spec

variable {D σ : Type}

@[simp] theorem Vertex.key_mk (k : Str) (d : Option D) (ds) : (Vertex.mk k d ds).key = k := rfl
@[simp] theorem Vertex.data_mk (k : Str) (d : Option D) (ds) : (Vertex.mk k d ds).data = d := rfl
@[simp] theorem Vertex.desc_mk (k : Str) (d : Option D) (ds) : (Vertex.mk k d ds).desc = ds := rfl

theorem descGet_descSet {α : Type} (l : List (ℕ × α)) (p q : ℕ) (u : α) :
    descGet (descSet l p u) q = if p = q then some u else descGet l q := by
  induction l with
  | nil => simp [descSet, descGet]
  | cons e t ih =>
    obtain ⟨k, w⟩ := e
    rw [descSet]
    by_cases hk : k = p
    · subst hk
      rw [if_pos rfl, descGet, descGet]
      split_ifs <;> rfl
    · rw [if_neg hk, descGet, descGet, ih]
      by_cases hkq : k = q
      · subst hkq
        rw [if_pos rfl, if_pos rfl, if_neg (Ne.symm hk)]
      · rw [if_neg hkq, if_neg hkq]

theorem descSet_mem {α : Type} (l : List (ℕ × α)) (p : ℕ) (u : α) (e : ℕ × α) (h : e ∈ descSet l p u) :
    e.1 = p ∨ e ∈ l := by
  induction l with
  | nil => simp [descSet] at h; left; rw [h]
  | cons a t ih =>
    obtain ⟨k, w⟩ := a
    rw [descSet] at h
    by_cases hk : k = p
    · rw [if_pos hk] at h
      rcases List.mem_cons.1 h with rfl | h
      · left; rfl
      · right; exact List.mem_cons_of_mem _ h
    · rw [if_neg hk] at h
      rcases List.mem_cons.1 h with rfl | h
      · right; exact List.mem_cons_self ..
      · rcases ih h with h | h
        · left; exact h
        · right; exact List.mem_cons_of_mem _ h

theorem descGet_some_mem {α : Type} (l : List (ℕ × α)) (p : ℕ) (u : α) (h : descGet l p = some u) :
    (p, u) ∈ l := by
  induction l with
  | nil => simp [descGet] at h
  | cons a t ih =>
    obtain ⟨k, w⟩ := a
    rw [descGet] at h
    by_cases hk : k = p
    · rw [if_pos hk, Option.some.injEq] at h
      subst hk h
      exact List.mem_cons_self ..
    · rw [if_neg hk] at h
      exact List.mem_cons_of_mem _ (ih h)

theorem rawData_some (desc : List (ℕ × Vertex D)) (size : ℕ) (raw : List (Option D))
    (h : rawData desc size = some raw) :
    raw = (List.range size).map (fun i => (descGet desc i).bind Vertex.data) ∧
      ∀ p u, descGet desc p = some u → p < size := by
  unfold rawData at h
  by_cases hc : desc.any (fun e => decide (size ≤ e.1)) = true
  · rw [if_pos hc] at h; simp at h
  · rw [if_neg hc, Option.some.injEq] at h
    refine ⟨h.symm, fun p u hp => ?_⟩
    have := descGet_some_mem _ _ _ hp
    by_contra hge
    apply hc
    rw [List.any_eq_true]
    exact ⟨(p, u), this, by simp; omega⟩

/-- The vertex at the end of a path. -/
def find : List ℕ → Vertex D → Option (Vertex D)
  | [], v => some v
  | p :: rest, v => (descGet v.desc p).bind (find rest)

@[simp] theorem find_nil (v : Vertex D) : find [] v = some v := rfl

theorem find_cons (p : ℕ) (rest : List ℕ) (v : Vertex D) :
    find (p :: rest) v = (descGet v.desc p).bind (find rest) := rfl

theorem find_append (q r : List ℕ) (v : Vertex D) : find (q ++ r) v = (find q v).bind (find r) := by
  induction q generalizing v with
  | nil => rfl
  | cons p t ih =>
    rw [List.cons_append, find_cons, find_cons, Option.bind_assoc]
    congr 1
    funext u
    exact ih u

theorem find_fresh (k : Str) (q : List ℕ) (hq : q ≠ []) : find q (Vertex.mk k none ([] : List (ℕ × Vertex D))) = none := by
  cases q with
  | nil => exact absurd rfl hq
  | cons p t => rfl

theorem getAt_some_iff (q : List ℕ) (v : Vertex D) (d : Option D) (vs : List (Vertex D)) :
    getAt q v = some (d, vs) → (find q v).map Vertex.data = some d ∧ vs.length = q.length ∧
      ∀ i, i < q.length → vs[i]? = find (q.take i) v := by
  induction q generalizing v vs with
  | nil =>
    intro h
    simp only [getAt, Option.some.injEq, Prod.mk.injEq] at h
    obtain ⟨rfl, rfl⟩ := h
    simp
  | cons p t ih =>
    intro h
    rw [getAt] at h
    cases hp : descGet v.desc p with
    | none => simp [hp] at h
    | some u =>
      cases hu : getAt t u with
      | none => simp [hp, hu] at h
      | some r =>
        obtain ⟨d', vs'⟩ := r
        simp only [hp, hu, Option.some.injEq, Prod.mk.injEq] at h
        obtain ⟨rfl, rfl⟩ := h
        obtain ⟨h1, h2, h3⟩ := ih u vs' hu
        refine ⟨by rw [find_cons, hp]; exact h1, by simp [h2], ?_⟩
        intro i hi
        cases i with
        | zero => rfl
        | succ i =>
          rw [List.getElem?_cons_succ, List.take_succ_cons, find_cons, hp]
          exact h3 i (by simpa using hi)

theorem getAt_isSome_iff (q : List ℕ) (v : Vertex D) : (getAt q v).isSome = (find q v).isSome := by
  induction q generalizing v with
  | nil => rfl
  | cons p t ih =>
    rw [getAt, find_cons]
    cases hp : descGet v.desc p with
    | none => rfl
    | some u =>
      have := ih u
      cases hu : getAt t u with
      | none => simp [hu] at this; simp [hu, this]
      | some r => simp [hu] at this; simp [hu, this]

theorem getAt_fst (q : List ℕ) (v : Vertex D) : (getAt q v).bind Prod.fst = (find q v).bind Vertex.data := by
  cases h : getAt q v with
  | none =>
    have := getAt_isSome_iff q v
    rw [h] at this
    simp only [Option.isSome_none, Bool.false_eq, Option.isSome_eq_false_iff, Option.isNone_iff_eq_none] at this
    rw [this]; rfl
  | some r =>
    obtain ⟨d, vs⟩ := r
    obtain ⟨h1, -, -⟩ := getAt_some_iff q v d vs h
    cases hf : find q v with
    | none => simp [hf] at h1
    | some u =>
      rw [hf] at h1
      simp only [Option.map_some, Option.some.injEq] at h1
      simp [h1]

theorem getAt_eq (q : List ℕ) (v u : Vertex D) (h : find q v = some u) :
    ∃ vs, getAt q v = some (u.data, vs) ∧ vs.length = q.length := by
  have := getAt_isSome_iff q v
  rw [h] at this
  simp only [Option.isSome_some] at this
  obtain ⟨⟨d, vs⟩, hr⟩ := Option.isSome_iff_exists.1 this
  obtain ⟨h1, h2, -⟩ := getAt_some_iff q v d vs hr
  rw [h] at h1
  simp only [Option.map_some, Option.some.injEq] at h1
  exact ⟨vs, by rw [hr, h1], h2⟩

theorem getAt_none (q : List ℕ) (v : Vertex D) (h : find q v = none) : getAt q v = none := by
  have := getAt_isSome_iff q v
  rw [h] at this
  simpa using this

/-! ## One step of `putAt` -/

/-- What a successful `putAt` on a non-empty path does. -/
theorem putAt_cons {fanOut : ℕ} {upd : Update D σ} {data : Option D} {p : ℕ} {rest : List ℕ} {ps : Str}
    {v v' : Vertex D} {s s' : σ} (h : putAt fanOut upd data (p :: rest) ps v s = some (v', s')) :
    ∃ child' s1 d,
      putAt fanOut upd data rest (childKey ps p)
        ((descGet v.desc p).getD (.mk (childKey ps p) none [])) s = some (child', s1) ∧
      (∀ q u, descGet (descSet v.desc p child') q = some u → q < fanOut) ∧
      upd v.key v.data ((List.range fanOut).map fun i => (descGet (descSet v.desc p child') i).bind Vertex.data)
        rest.isEmpty p s1 = some (d, s') ∧
      v' = .mk v.key d (descSet v.desc p child') := by
  rw [putAt] at h
  obtain ⟨⟨child', s1⟩, h1, h⟩ := Option.bind_eq_some_iff.1 h
  dsimp only at h
  obtain ⟨raw, h2, h⟩ := Option.bind_eq_some_iff.1 h
  obtain ⟨⟨d, s2⟩, h3, h⟩ := Option.bind_eq_some_iff.1 h
  simp only [Option.pure_def, Option.some.injEq, Prod.mk.injEq] at h
  obtain ⟨hr1, hr2⟩ := rawData_some _ _ _ h2
  obtain ⟨h4, rfl⟩ := h
  subst hr1
  exact ⟨child', s1, d, h1, hr2, h3, h4.symm⟩

theorem putAt_nil {fanOut : ℕ} {upd : Update D σ} {data : Option D} {ps : Str}
    {v v' : Vertex D} {s s' : σ} (h : putAt fanOut upd data [] ps v s = some (v', s')) :
    v' = .mk v.key data v.desc ∧ s' = s := by
  simp only [putAt, Option.some.injEq, Prod.mk.injEq] at h
  exact ⟨h.1.symm, h.2.symm⟩

theorem putAt_key {fanOut : ℕ} {upd : Update D σ} {data : Option D} {path : List ℕ} {ps : Str}
    {v v' : Vertex D} {s s' : σ} (h : putAt fanOut upd data path ps v s = some (v', s')) :
    v'.key = v.key := by
  cases path with
  | nil => rw [(putAt_nil h).1]; rfl
  | cons p rest =>
    obtain ⟨_, _, _, _, _, _, rfl⟩ := putAt_cons h
    rfl

/-- The vertex that `putAt` continues with, or none. -/
theorem find_getD (v : Vertex D) (p : ℕ) (k : Str) (q : List ℕ) (hq : q ≠ []) :
    find q ((descGet v.desc p).getD (.mk k none [])) = find (p :: q) v := by
  rw [find_cons]
  cases h : descGet v.desc p with
  | none => simp [find_fresh _ _ hq]
  | some u => rfl

/-- A put changes the presence and data of vertices only along its path. -/
theorem find_putAt_off {fanOut : ℕ} {upd : Update D σ} {data : Option D} {path : List ℕ} {ps : Str}
    {v v' : Vertex D} {s s' : σ} (h : putAt fanOut upd data path ps v s = some (v', s'))
    (q : List ℕ) (hq : ¬ q <+: path) : (find q v').map (fun u => (u.key, u.data)) = (find q v).map (fun u => (u.key, u.data)) := by
  induction path generalizing ps v v' s s' q with
  | nil =>
    obtain ⟨rfl, -⟩ := putAt_nil h
    cases q with
    | nil => exact absurd (List.nil_prefix) hq
    | cons x t => rfl
  | cons p rest ih =>
    obtain ⟨child', s1, d, h1, h2, h3, rfl⟩ := putAt_cons h
    cases q with
    | nil => exact absurd (List.nil_prefix) hq
    | cons x t =>
      rw [find_cons, Vertex.desc_mk, descGet_descSet]
      by_cases hx : p = x
      · subst hx
        rw [if_pos rfl, Option.bind_some]
        have ht : ¬ t <+: rest := fun hc => hq (List.cons_prefix_cons.2 ⟨rfl, hc⟩)
        have ht0 : t ≠ [] := by rintro rfl; exact ht List.nil_prefix
        rw [ih h1 t ht, find_getD _ _ _ _ ht0]
      · rw [if_neg hx, find_cons]

theorem find_putAt_self {fanOut : ℕ} {upd : Update D σ} {data : Option D} {path : List ℕ} {ps : Str}
    {v v' : Vertex D} {s s' : σ} (h : putAt fanOut upd data path ps v s = some (v', s')) :
    (find path v').map Vertex.data = some data := by
  induction path generalizing ps v v' s s' with
  | nil => obtain ⟨rfl, -⟩ := putAt_nil h; rfl
  | cons p rest ih =>
    obtain ⟨child', s1, d, h1, h2, h3, rfl⟩ := putAt_cons h
    rw [find_cons, Vertex.desc_mk, descGet_descSet, if_pos rfl, Option.bind_some]
    exact ih h1

theorem find_putAt_prefix {fanOut : ℕ} {upd : Update D σ} {data : Option D} {path : List ℕ} {ps : Str}
    {v v' : Vertex D} {s s' : σ} (h : putAt fanOut upd data path ps v s = some (v', s'))
    (q : List ℕ) (hq : q <+: path) : (find q v').isSome := by
  obtain ⟨r, rfl⟩ := hq
  have := find_putAt_self h
  rw [find_append] at this
  cases hf : find q v' with
  | none => simp [hf] at this
  | some u => rfl


/-! ## Sequences of puts -/

theorem put_some {t t' : Tree D σ} {id : Str} {data : Option D} {s s' : σ}
    (h : t.put id data s = some (t', s')) :
    ∃ path root', t.id2Path id = some path ∧
      putAt t.fanOut t.update data path [] (t.root.getD (.mk [] none [])) s = some (root', s') ∧
      t' = { t with root := some root' } := by
  unfold Tree.put at h
  obtain ⟨path, h1, h⟩ := Option.bind_eq_some_iff.1 h
  obtain ⟨⟨root', s1⟩, h2, h⟩ := Option.bind_eq_some_iff.1 h
  simp only [Option.pure_def, Option.some.injEq, Prod.mk.injEq] at h
  obtain ⟨h3, rfl⟩ := h
  exact ⟨path, root', h1, h2, h3.symm⟩

theorem puts_nil (t : Tree D σ) (s : σ) : t.puts [] s = some (t, s) := rfl

theorem puts_concat (t : Tree D σ) (hist : List (Str × Option D)) (e : Str × Option D) (s : σ) :
    t.puts (hist ++ [e]) s = (t.puts hist s).bind fun ts => ts.1.put e.1 e.2 ts.2 := by
  unfold Tree.puts
  rw [List.foldlM_append]
  simp

theorem puts_concat_some {t t' : Tree D σ} {hist : List (Str × Option D)} {e : Str × Option D} {s s' : σ}
    (h : t.puts (hist ++ [e]) s = some (t', s')) :
    ∃ t1 s1, t.puts hist s = some (t1, s1) ∧ t1.put e.1 e.2 s1 = some (t', s') := by
  rw [puts_concat] at h
  obtain ⟨⟨t1, s1⟩, h1, h2⟩ := Option.bind_eq_some_iff.1 h
  exact ⟨t1, s1, h1, h2⟩

/-- Induction over sequences of puts. -/
theorem puts_induction {t0 : Tree D σ} {s0 : σ} (P : List (Str × Option D) → Tree D σ → σ → Prop)
    (h0 : P [] t0 s0)
    (hstep : ∀ hist e t s t' s', t0.puts hist s0 = some (t, s) → P hist t s → t.put e.1 e.2 s = some (t', s') →
      P (hist ++ [e]) t' s') :
    ∀ hist t s, t0.puts hist s0 = some (t, s) → P hist t s := by
  intro hist
  induction hist using List.reverseRecOn with
  | nil =>
    intro t s h
    rw [puts_nil, Option.some.injEq, Prod.mk.injEq] at h
    rw [← h.1, ← h.2]; exact h0
  | append_singleton hist e ih =>
    intro t s h
    obtain ⟨t1, s1, h1, h2⟩ := puts_concat_some h
    exact hstep hist e t1 s1 t s h1 (ih t1 s1 h1) h2

/-- A put leaves everything but the root. -/
theorem puts_fields {t0 : Tree D σ} {s0 : σ} : ∀ hist t s, t0.puts hist s0 = some (t, s) →
    t.id2Path = t0.id2Path ∧ t.fanOut = t0.fanOut ∧ t.update = t0.update := by
  apply puts_induction (P := fun _ t _ => t.id2Path = t0.id2Path ∧ t.fanOut = t0.fanOut ∧ t.update = t0.update)
  · exact ⟨rfl, rfl, rfl⟩
  · intro hist e t s t' s' _ ih h
    obtain ⟨path, root', _, _, rfl⟩ := put_some h
    exact ih

theorem lastPut_nil {K V : Type} [DecidableEq K] (k : K) : lastPut ([] : List (K × V)) k = none := rfl

theorem lastPut_concat {K V : Type} [DecidableEq K] (hist : List (K × V)) (e : K × V) (k : K) :
    lastPut (hist ++ [e]) k = if e.1 = k then some e.2 else lastPut hist k := by
  unfold lastPut
  rw [List.reverse_append, List.reverse_singleton, List.singleton_append, List.find?_cons]
  by_cases h : e.1 = k
  · simp [h]
  · simp [h]

/-! ## Keys -/

theorem keyOf_append (q r : List ℕ) : keyOf (q ++ r) = keyOf q ++ keyOf r := by
  unfold keyOf; rw [List.flatMap_append]

theorem childKey_keyOf (q : List ℕ) (p : ℕ) : childKey (keyOf q) p = keyOf (q ++ [p]) := by
  rw [keyOf_append]; simp [childKey, keyOf]

/-- Every vertex below `v` has the key of its path, `v` itself being at path `pre`. -/
def KeysOk (pre : List ℕ) (v : Vertex D) : Prop := ∀ q u, find q v = some u → u.key = keyOf (pre ++ q)

theorem KeysOk.child {pre : List ℕ} {v : Vertex D} (h : KeysOk pre v) (p : ℕ) :
    KeysOk (pre ++ [p]) ((descGet v.desc p).getD (.mk (childKey (keyOf pre) p) none [])) := by
  intro q u hq
  cases hd : descGet v.desc p with
  | none =>
    rw [hd, Option.getD_none] at hq
    cases q with
    | nil =>
      rw [find_nil, Option.some.injEq] at hq
      rw [← hq, Vertex.key_mk, childKey_keyOf, List.append_nil]
    | cons x t => rw [find_fresh _ _ (by simp)] at hq; simp at hq
  | some w =>
    rw [hd, Option.getD_some] at hq
    rw [List.append_assoc]
    exact h (p :: q) u (by rw [find_cons, hd]; exact hq)

theorem KeysOk.putAt {fanOut : ℕ} {upd : Update D σ} {data : Option D} {path : List ℕ} {pre : List ℕ}
    {v v' : Vertex D} {s s' : σ} (hv : KeysOk pre v)
    (h : putAt fanOut upd data path (keyOf pre) v s = some (v', s')) : KeysOk pre v' := by
  induction path generalizing pre v v' s s' with
  | nil =>
    obtain ⟨rfl, -⟩ := putAt_nil h
    intro q u hq
    cases q with
    | nil =>
      rw [find_nil, Option.some.injEq] at hq
      rw [← hq]; exact hv [] v rfl
    | cons x t => exact hv (x :: t) u hq
  | cons p rest ih =>
    obtain ⟨child', s1, d, h1, h2, h3, rfl⟩ := putAt_cons h
    rw [childKey_keyOf] at h1
    have hc := ih (by have := hv.child p; rwa [childKey_keyOf] at this) h1
    intro q u hq
    cases q with
    | nil =>
      rw [find_nil, Option.some.injEq] at hq
      rw [← hq]; exact hv [] v rfl
    | cons x t =>
      rw [find_cons, Vertex.desc_mk, descGet_descSet] at hq
      by_cases hx : p = x
      · subst hx
        rw [if_pos rfl, Option.bind_some] at hq
        have := hc t u hq
        rwa [List.append_assoc] at this
      · rw [if_neg hx] at hq
        exact hv (x :: t) u hq

theorem keysOk_fresh (pre : List ℕ) : KeysOk pre (Vertex.mk (keyOf pre) none ([] : List (ℕ × Vertex D))) := by
  intro q u hq
  cases q with
  | nil =>
    rw [find_nil, Option.some.injEq] at hq
    rw [← hq, List.append_nil]; rfl
  | cons x t => rw [find_fresh _ _ (by simp)] at hq; simp at hq

theorem keysOk_puts {t0 : Tree D σ} (h0 : t0.root = none) {s0 : σ} :
    ∀ hist t s, t0.puts hist s0 = some (t, s) → KeysOk [] (t.root.getD (.mk [] none [])) := by
  apply puts_induction (P := fun _ t _ => KeysOk [] (t.root.getD (.mk [] none [])))
  · rw [h0]; exact keysOk_fresh []
  · intro hist e t s t' s' _ ih h
    obtain ⟨path, root', _, h2, rfl⟩ := put_some h
    exact ih.putAt (pre := []) h2

/-! ## Recording -/

theorem rawData_eq (l : List (ℕ × Vertex D)) (size : ℕ) (h : ∀ q u, descGet l q = some u → q < size) :
    rawData l size = some ((List.range size).map fun i => (descGet l i).bind Vertex.data) := by
  unfold rawData
  rw [if_neg]
  intro hany
  rw [List.any_eq_true] at hany
  obtain ⟨e, he, hge⟩ := hany
  have hm : ∃ u, descGet l e.1 = some u := by
    clear hge h
    induction l with
    | nil => simp at he
    | cons a t ih2 =>
      obtain ⟨k, w⟩ := a
      rw [descGet]
      by_cases hk : k = e.1
      · exact ⟨w, by rw [if_pos hk]⟩
      · rw [if_neg hk]
        rcases List.mem_cons.1 he with rfl | he
        · exact absurd rfl hk
        · exact ih2 he
  obtain ⟨u, hu⟩ := hm
  have := h _ _ hu
  simp only [decide_eq_true_eq] at hge
  omega

theorem recording_eq {upd : Update D σ} {key : Str} {node : Option D} {children : List (Option D)} {leaves : Bool}
    {index : ℕ} {s s' : σ} {d : Option D} (h : upd key node children leaves index s = some (d, s'))
    (log : List (Call D)) : recording upd key node children leaves index (s, log)
      = some (d, (s', log ++ [⟨key, node, children, leaves, index⟩])) := by
  unfold recording
  exact obind_step h rfl

theorem putAt_recording {fanOut : ℕ} {upd : Update D σ} {data : Option D} {path : List ℕ} {pre : List ℕ}
    {v v' : Vertex D} {s s' : σ} (log : List (Call D)) (hv : KeysOk pre v)
    (h : putAt fanOut upd data path (keyOf pre) v s = some (v', s')) :
    putAt fanOut (recording upd) data path (keyOf pre) v (s, log) = some (v', (s', log ++
      (List.range path.length).reverse.map fun k =>
        { key := keyOf (pre ++ path.take k)
          node := (find (path.take k) v).bind Vertex.data
          children := (List.range fanOut).map fun i => (find (path.take k ++ [i]) v').bind Vertex.data
          leaves := decide (k + 1 = path.length)
          index := path.getD k 0 })) := by
  induction path generalizing pre v v' s s' with
  | nil =>
    obtain ⟨rfl, rfl⟩ := putAt_nil h
    simp [putAt]
  | cons p rest ih =>
    obtain ⟨child', s1, d, h1, h2, h3, rfl⟩ := putAt_cons h
    rw [childKey_keyOf] at h1
    have hc := ih (by have := hv.child p; rwa [childKey_keyOf] at this) h1
    rw [Sparse.putAt, childKey_keyOf]
    refine obind_step hc ?_
    dsimp only
    have hraw := rawData_eq _ fanOut h2
    refine obind_step hraw ?_
    refine obind_step (recording_eq h3 _) ?_
    simp only [Option.pure_def, Option.some.injEq, Prod.mk.injEq, true_and]
    rw [List.length_cons, List.range_succ_eq_map, List.reverse_cons, List.map_append, List.append_assoc,
      ← List.map_reverse, List.map_map]
    congr 1
    congr 1
    · apply List.map_congr_left
      intro k hk
      have hk' : k < rest.length := by simpa using hk
      simp only [Function.comp, Nat.succ_eq_add_one, List.take_succ_cons, List.append_assoc,
        List.cons_append, List.getD_cons_succ]
      congr 1
      · cases hq : rest.take k with
        | nil =>
          rw [find_nil, find_cons]
          cases hd : descGet v.desc p <;> rfl
        | cons x t =>
          rw [← hq, find_getD _ _ _ _ (by rw [hq]; simp)]
      · apply List.map_congr_left
        intro i _
        rw [find_cons, Vertex.desc_mk, descGet_descSet, if_pos rfl, Option.bind_some]
      · simp
    · simp only [List.map_cons, List.map_nil, List.take_zero, List.append_nil, find_nil, Option.bind_some,
        List.nil_append, List.getD_cons_zero, List.cons.injEq, and_true]
      congr 1
      · have := hv [] v rfl
        rwa [List.append_nil] at this
      · apply List.map_congr_left
        intro i _
        rw [find_cons, Vertex.desc_mk]
        cases descGet (descSet v.desc p child') i <;> rfl
      · cases rest <;> simp

theorem dataAt_eq (root : Option (Vertex D)) (q : List ℕ) :
    dataAt root q = (find q (root.getD (.mk [] none []))).bind Vertex.data := by
  unfold dataAt
  cases root with
  | none =>
    simp only [Option.bind_none, Option.getD_none]
    cases q with
    | nil => rfl
    | cons x t => rw [find_fresh _ _ (by simp)]; rfl
  | some v => exact getAt_fst q v

/-! ## Totality -/

theorem putAt_total {fanOut : ℕ} {upd : Update D σ} (hupd : ∀ k n ds l i s, (upd k n ds l i s).isSome)
    {data : Option D} (path : List ℕ) (hp : ∀ x ∈ path, x < fanOut) (ps : Str) (v : Vertex D) (s : σ)
    (hv : ∀ q u x w, find q v = some u → descGet u.desc x = some w → x < fanOut) :
    ∃ v' s', putAt fanOut upd data path ps v s = some (v', s') ∧
      ∀ q u x w, find q v' = some u → descGet u.desc x = some w → x < fanOut := by
  induction path generalizing ps v s with
  | nil =>
    refine ⟨_, _, rfl, ?_⟩
    intro q u x w hq hx
    cases q with
    | nil =>
      rw [find_nil, Option.some.injEq] at hq
      rw [← hq] at hx
      exact hv [] v x w rfl hx
    | cons y t => exact hv (y :: t) u x w hq hx
  | cons p rest ih =>
    obtain ⟨child', s1, h1, hc⟩ := ih (fun x hx => hp x (by simp [hx])) (childKey ps p)
      ((descGet v.desc p).getD (.mk (childKey ps p) none [])) s (by
        intro q u x w hq hx
        cases hd : descGet v.desc p with
        | none =>
          rw [hd, Option.getD_none] at hq
          cases q with
          | nil =>
            rw [find_nil, Option.some.injEq] at hq
            rw [← hq] at hx
            simp [descGet] at hx
          | cons y t => rw [find_fresh _ _ (by simp)] at hq; simp at hq
        | some c =>
          rw [hd, Option.getD_some] at hq
          exact hv (p :: q) u x w (by rw [find_cons, hd]; exact hq) hx)
    have hlt : ∀ q u, descGet (descSet v.desc p child') q = some u → q < fanOut := by
      intro q u hq
      rw [descGet_descSet] at hq
      by_cases hpq : p = q
      · exact hpq ▸ hp p (by simp)
      · rw [if_neg hpq] at hq
        exact hv [] v q u rfl hq
    obtain ⟨⟨d, s2⟩, hd⟩ := Option.isSome_iff_exists.1 (hupd v.key v.data
      ((List.range fanOut).map fun i => (descGet (descSet v.desc p child') i).bind Vertex.data) rest.isEmpty p s1)
    refine ⟨.mk v.key d (descSet v.desc p child'), s2, ?_, ?_⟩
    · rw [putAt]
      refine obind_step h1 ?_
      dsimp only
      refine obind_step (rawData_eq _ _ hlt) ?_
      exact obind_step hd rfl
    · intro q u x w hq hx
      cases q with
      | nil =>
        rw [find_nil, Option.some.injEq] at hq
        rw [← hq] at hx
        exact hlt x w hx
      | cons y t =>
        rw [find_cons, Vertex.desc_mk, descGet_descSet] at hq
        by_cases hpy : p = y
        · rw [if_pos hpy, Option.bind_some] at hq
          exact hc t u x w hq hx
        · rw [if_neg hpy] at hq
          exact hv (y :: t) u x w hq hx

/-- The data at a path that is not a proper prefix of a path written to. -/
theorem puts_data {t0 : Tree D σ} (h0 : t0.root = none) {s : σ} (q : List ℕ) : ∀ hist t s', t0.puts hist s = some (t, s') →
    (∀ e ∈ hist, ∀ p, t0.id2Path e.1 = some p → q <+: p → q = p) →
    (t.root.bind (find q)).map Vertex.data = lastPut (hist.map fun e => (t0.id2Path e.1, e.2)) (some q) := by
  apply puts_induction (P := fun hist t _ => (∀ e ∈ hist, ∀ p, t0.id2Path e.1 = some p → q <+: p → q = p) →
    (t.root.bind (find q)).map Vertex.data = lastPut (hist.map fun e => (t0.id2Path e.1, e.2)) (some q))
  · intro _; rw [h0]; rfl
  · intro hist e t s1 t' s2 hrun ih hput hpre
    obtain ⟨hid, -, -⟩ := puts_fields hist t s1 hrun
    have ih := ih (fun e he => hpre e (by simp [he]))
    obtain ⟨path, root', hp, hroot, rfl⟩ := put_some hput
    rw [hid] at hp
    rw [List.map_append, List.map_singleton, lastPut_concat]
    simp only [Option.bind_some, hp]
    by_cases hpq : path = q
    · subst hpq
      rw [if_pos rfl, find_putAt_self hroot]
    · rw [if_neg (by simpa using hpq), ← ih]
      have hnp : ¬ q <+: path := fun hc => hpq (hpre e (by simp) path hp hc).symm
      have hoff := find_putAt_off hroot q hnp
      have h2 : (find q root').map Vertex.data
          = (find q (t.root.getD (.mk [] none []))).map Vertex.data := by
        have := congrArg (Option.map Prod.snd) hoff
        simpa [Option.map_map, Function.comp_def] using this
      rw [h2]
      cases hr : t.root with
      | none =>
        rw [Option.getD_none, find_fresh _ _ (by rintro rfl; exact hnp List.nil_prefix)]
        rfl
      | some v => rfl

end PoL.Sparse
