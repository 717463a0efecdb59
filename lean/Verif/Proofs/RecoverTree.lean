import Verif.Proofs.Recover

/-!
# What a panicking `Put` leaves behind: the tree
-/

set_option linter.unusedSectionVars false

namespace PoL.Sparse
open Spec

variable {D σ : Type}

theorem roundR_vertex (fanOut : ℕ) (upd : UpdateR D σ) (v : Vertex D) (leaves : Bool) (p : ℕ) (r : Left (Vertex D) σ) :
    (roundR fanOut upd v leaves p r).vertex.key = v.key ∧
      (roundR fanOut upd v leaves p r).vertex.desc = descSet v.desc p r.vertex := by
  unfold roundR assignR
  repeat' split
  all_goals exact ⟨rfl, rfl⟩

theorem roundR_not_ok (fanOut : ℕ) (upd : UpdateR D σ) (v : Vertex D) (leaves : Bool) (p : ℕ) (r : Left (Vertex D) σ)
    (h : r.ok = false) : roundR fanOut upd v leaves p r = ⟨false, .mk v.key v.data (descSet v.desc p r.vertex), r.state⟩ := by
  unfold roundR
  rw [h]
  rfl

/-- A round either does not get to the callback, or is what the callback does. -/
theorem roundR_cases (fanOut : ℕ) (upd : UpdateR D σ) (v : Vertex D) (leaves : Bool) (p : ℕ) (r : Left (Vertex D) σ) :
    (roundR fanOut upd v leaves p r).ok = false ∧ (roundR fanOut upd v leaves p r).vertex.data = v.data ∧
      (roundR fanOut upd v leaves p r).state = r.state ∨
    r.ok = true ∧ ∃ raw, rawData (descSet v.desc p r.vertex) fanOut = some raw ∧
      (roundR fanOut upd v leaves p r).state = (upd v.key v.data raw leaves p r.state).2 ∧
      ((roundR fanOut upd v leaves p r).ok = false ∧ (upd v.key v.data raw leaves p r.state).1 = none ∧
          (roundR fanOut upd v leaves p r).vertex.data = v.data ∨
        (roundR fanOut upd v leaves p r).ok = true ∧
          (upd v.key v.data raw leaves p r.state).1 = some (roundR fanOut upd v leaves p r).vertex.data) := by
  unfold roundR
  by_cases hr : r.ok = true
  · rw [if_pos hr]
    unfold assignR
    cases hraw : rawData (descSet v.desc p r.vertex) fanOut with
    | none => exact Or.inl ⟨rfl, rfl, rfl⟩
    | some raw =>
      refine Or.inr ⟨hr, raw, rfl, ?_⟩
      dsimp only
      rcases hu : upd v.key v.data raw leaves p r.state with ⟨_ | d, s'⟩
      · exact ⟨rfl, Or.inl ⟨rfl, rfl, rfl⟩⟩
      · exact ⟨rfl, Or.inr ⟨rfl, rfl⟩⟩
  · rw [if_neg hr]
    exact Or.inl ⟨rfl, rfl, rfl⟩

theorem putAtR_cons (fanOut : ℕ) (upd : UpdateR D σ) (data : Option D) (p : ℕ) (rest : List ℕ) (ps : Str)
    (v : Vertex D) (s : σ) : putAtR fanOut upd data (p :: rest) ps v s =
      roundR fanOut upd v rest.isEmpty p (putAtR fanOut upd data rest (childKey ps p)
        ((descGet v.desc p).getD (.mk (childKey ps p) none [])) s) := rfl

theorem putAtR_key (fanOut : ℕ) (upd : UpdateR D σ) (data : Option D) (path : List ℕ) (ps : Str) (v : Vertex D) (s : σ) :
    (putAtR fanOut upd data path ps v s).vertex.key = v.key := by
  cases path with
  | nil => rfl
  | cons p rest => rw [putAtR_cons]; exact (roundR_vertex ..).1

/-- What is found below after a put. -/
theorem find_putAtR_cons (fanOut : ℕ) (upd : UpdateR D σ) (data : Option D) (p : ℕ) (rest : List ℕ) (ps : Str)
    (v : Vertex D) (s : σ) (x : ℕ) (t : List ℕ) :
    find (x :: t) (putAtR fanOut upd data (p :: rest) ps v s).vertex =
      if p = x then find t (putAtR fanOut upd data rest (childKey ps p)
        ((descGet v.desc p).getD (.mk (childKey ps p) none [])) s).vertex
      else find (x :: t) v := by
  rw [putAtR_cons, find_cons, (roundR_vertex ..).2, descGet_descSet]
  split_ifs with h
  · rfl
  · rw [find_cons]

theorem find_putAtR_off (fanOut : ℕ) (upd : UpdateR D σ) (data : Option D) (path : List ℕ) (ps : Str) (v : Vertex D) (s : σ)
    (q : List ℕ) (hq : ¬ q <+: path) :
    (find q (putAtR fanOut upd data path ps v s).vertex).map (fun u => (u.key, u.data)) =
      (find q v).map (fun u => (u.key, u.data)) := by
  induction path generalizing ps v s q with
  | nil =>
    cases q with
    | nil => exact absurd (List.nil_prefix) hq
    | cons x t => rfl
  | cons p rest ih =>
    cases q with
    | nil => exact absurd (List.nil_prefix) hq
    | cons x t =>
      rw [find_putAtR_cons]
      by_cases hx : p = x
      · subst hx
        rw [if_pos rfl]
        have ht : ¬ t <+: rest := fun hc => hq (List.cons_prefix_cons.2 ⟨rfl, hc⟩)
        have ht0 : t ≠ [] := by rintro rfl; exact ht List.nil_prefix
        rw [ih _ _ _ t ht, find_getD _ _ _ _ ht0]
      · rw [if_neg hx]

theorem find_putAtR_self (fanOut : ℕ) (upd : UpdateR D σ) (data : Option D) (path : List ℕ) (ps : Str) (v : Vertex D) (s : σ) :
    (find path (putAtR fanOut upd data path ps v s).vertex).map Vertex.data = some data := by
  induction path generalizing ps v s with
  | nil => rfl
  | cons p rest ih =>
    rw [find_putAtR_cons, if_pos rfl]
    exact ih _ _ _

theorem KeysOk.putAtR {fanOut : ℕ} {upd : UpdateR D σ} {data : Option D} {path : List ℕ} {pre : List ℕ}
    {v : Vertex D} {s : σ} (hv : KeysOk pre v) : KeysOk pre (putAtR fanOut upd data path (keyOf pre) v s).vertex := by
  induction path generalizing pre v s with
  | nil =>
    intro q u hq
    cases q with
    | nil =>
      rw [find_nil, Option.some.injEq] at hq
      rw [← hq]; exact hv [] v rfl
    | cons x t => exact hv (x :: t) u hq
  | cons p rest ih =>
    intro q u hq
    cases q with
    | nil =>
      rw [find_nil, Option.some.injEq] at hq
      rw [← hq, putAtR_key]; exact hv [] v rfl
    | cons x t =>
      rw [find_putAtR_cons] at hq
      by_cases hx : p = x
      · subst hx
        rw [if_pos rfl, childKey_keyOf] at hq
        have := ih (by have := hv.child p; rwa [childKey_keyOf] at this) t u hq
        rwa [List.append_assoc] at this
      · rw [if_neg hx] at hq
        exact hv (x :: t) u hq

/-- A put returns in both models in the same cases, with the same result. -/
theorem putAtR_iff {fanOut : ℕ} {upd : Update D σ} {updR : UpdateR D σ}
    (hu : ∀ k n ds l i s d s', updR k n ds l i s = (some d, s') ↔ upd k n ds l i s = some (d, s'))
    {data : Option D} (path : List ℕ) (ps : Str) (v v' : Vertex D) (s s' : σ) :
    putAtR fanOut updR data path ps v s = ⟨true, v', s'⟩ ↔ putAt fanOut upd data path ps v s = some (v', s') := by
  induction path generalizing ps v v' s s' with
  | nil => simp [putAtR, putAt]
  | cons p rest ih =>
    rw [putAtR_cons, putAt]
    simp only [Option.bind_eq_bind, Option.pure_def]
    rcases hr : putAtR fanOut updR data rest (childKey ps p)
      ((descGet v.desc p).getD (.mk (childKey ps p) none [])) s with ⟨ok, w, s1⟩
    cases ok with
    | false =>
      have hn : putAt fanOut upd data rest (childKey ps p)
          ((descGet v.desc p).getD (.mk (childKey ps p) none [])) s = none := by
        cases hc : putAt fanOut upd data rest (childKey ps p)
          ((descGet v.desc p).getD (.mk (childKey ps p) none [])) s with
        | none => rfl
        | some x =>
          obtain ⟨x1, x2⟩ := x
          rw [← ih, hr] at hc
          cases hc
      rw [hn, roundR_not_ok _ _ _ _ _ _ rfl]
      simp
    | true =>
      rw [(ih _ _ _ _ _).1 hr]
      unfold roundR assignR
      simp only [Option.bind_some, if_true]
      cases rawData (descSet v.desc p w) fanOut with
      | none => simp
      | some raw =>
        simp only [Option.bind_some]
        rcases ho : updR v.key v.data raw rest.isEmpty p s1 with ⟨_ | d, s2⟩
        · have hn : upd v.key v.data raw rest.isEmpty p s1 = none := by
            cases hc : upd v.key v.data raw rest.isEmpty p s1 with
            | none => rfl
            | some x =>
              obtain ⟨x1, x2⟩ := x
              rw [← hu, ho] at hc
              cases hc
          rw [hn]
          simp
        · rw [(hu _ _ _ _ _ _ _ _).1 ho]
          simp

end PoL.Sparse

namespace PoL.Verkle
open Sparse Spec

variable {G1 G2 GT : Type} [AddCommGroup G1] [Module Zr G1] [AddCommGroup G2] [Module Zr G2]
  [AddCommGroup GT] [Module Zr GT] [DecidableEq G1] [DecidableEq GT]

/-- A put writes only under the keys of the proper prefixes of its path. -/
theorem putAtR_footprint (E : Curve G1 G2 GT) (PP : PP G1 G2 GT) (env : Env) (F : ℕ) (data : Option Data)
    (path pre : List ℕ) (v : Sparse.Vertex Data) (hv : KeysOk pre v) (s : State) (k : Str)
    (hk : ∀ q, q <+: path → q ≠ path → k ≠ keyOf (pre ++ q)) :
    (putAtR F (updateInnerVertexR E PP env) data path (keyOf pre) v s).state.db k = s.db k := by
  induction path generalizing pre v s with
  | nil => rfl
  | cons p rest ih =>
    rw [putAtR_cons, childKey_keyOf]
    have hc := hv.child p
    rw [childKey_keyOf] at hc
    have hrec := ih (pre ++ [p]) _ hc s fun q hq hne => by
      have := hk (p :: q) (List.cons_prefix_cons.2 ⟨rfl, hq⟩) (by simpa using hne)
      rwa [List.append_assoc]
    rcases roundR_cases F (updateInnerVertexR E PP env) v rest.isEmpty p
      (putAtR F (updateInnerVertexR E PP env) data rest (keyOf (pre ++ [p]))
        ((descGet v.desc p).getD (.mk (keyOf (pre ++ [p])) none [])) s) with ⟨-, -, h⟩ | ⟨-, raw, -, h, -⟩
    · rw [h]; exact hrec
    · rw [h, updateR_footprint, hrec]
      have := hk [] List.nil_prefix (by simp)
      rw [List.append_nil] at this
      have h0 := hv [] v rfl
      rw [List.append_nil] at h0
      rwa [h0]

/-- Below a vertex with data whose key is not in the database every put panics, and that stays so. -/
theorem putAtR_missing (E : Curve G1 G2 GT) (PP : PP G1 G2 GT) (env : Env) (F : ℕ) (data : Option Data)
    (path pre : List ℕ) (hpath : path ≠ []) (v : Sparse.Vertex Data) (hv : KeysOk pre v) (s : State) (n : Data)
    (hn : v.data = some n) (hl : load E s.db (keyOf pre) = none) :
    (putAtR F (updateInnerVertexR E PP env) data path (keyOf pre) v s).ok = false ∧
      (putAtR F (updateInnerVertexR E PP env) data path (keyOf pre) v s).vertex.data = some n ∧
      load E (putAtR F (updateInnerVertexR E PP env) data path (keyOf pre) v s).state.db (keyOf pre) = none := by
  cases path with
  | nil => exact absurd rfl hpath
  | cons p rest =>
    have hc := hv.child p
    rw [childKey_keyOf] at hc
    have h0 := hv [] v rfl
    rw [List.append_nil] at h0
    rw [putAtR_cons, childKey_keyOf]
    have hfoot := putAtR_footprint E PP env F data rest (pre ++ [p]) _ hc s (keyOf pre) fun q _ _ h => by
      have := congrArg List.length (keyOf_injective h)
      simp at this
    have hl' := (load_congr E hfoot).trans hl
    rcases roundR_cases F (updateInnerVertexR E PP env) v rest.isEmpty p
      (putAtR F (updateInnerVertexR E PP env) data rest (keyOf (pre ++ [p]))
        ((descGet v.desc p).getD (.mk (keyOf (pre ++ [p])) none [])) s) with ⟨h1, h2, h3⟩ | ⟨-, raw, -, h3, h4⟩
    · exact ⟨h1, h2.trans hn, by rw [h3]; exact hl'⟩
    · rw [h0, hn] at h3 h4
      rw [updateR_missing E PP env _ n raw _ p _ hl'] at h3 h4
      rcases h4 with ⟨h5, -, h6⟩ | ⟨-, h5⟩
      · exact ⟨h5, h6, by rw [h3]; exact hl'⟩
      · cases h5

/-- The vertex at `q` has its child `c` among its values but not among its digests, and that child has data but
no vertex in the database. -/
structure Poisoned (E : Curve G1 G2 GT) (pre q : List ℕ) (c : ℕ) (v : Sparse.Vertex Data) (db : Db) : Prop where
  data : ∃ u n, find q v = some u ∧ u.data = some n
  leaf : ∃ u n, find (q ++ [c]) v = some u ∧ u.data = some n
  vertex : ∃ x, load E db (keyOf (pre ++ q)) = some x ∧ (x.values (UInt16.ofNat c)).isSome ∧
    x.digests (UInt16.ofNat c) = none
  missing : load E db (keyOf (pre ++ (q ++ [c]))) = none

theorem ofNat16_inj {a b : ℕ} (ha : a < 65536) (hb : b < 65536) (h : UInt16.ofNat a = UInt16.ofNat b) : a = b := by
  have := congrArg UInt16.toNat h
  rwa [toNat_ofNat16 ha, toNat_ofNat16 hb] at this

/-- The callback at a poisoned vertex leaves it poisoned, and panics unless the child written is a leaf. -/
theorem updateR_poisoned {E : Curve G1 G2 GT} (hE : E.Lawful) {env : Env} (henv : env.Lawful) (PP : PP G1 G2 GT)
    (key : Str) (n : Data) (descendants : List (Option Data)) (leaves : Bool) (index c : ℕ)
    (hc : c < 65536) (hcN : c < PP.N) (hi : index < 65536) (hic : leaves = false → index ≠ c) (s : State)
    (h : ∃ x, load E s.db key = some x ∧ (x.values (UInt16.ofNat c)).isSome ∧ x.digests (UInt16.ofNat c) = none) :
    (∃ x, load E (updateInnerVertexR E PP env key (some n) descendants leaves index s).2.db key = some x ∧
      (x.values (UInt16.ofNat c)).isSome ∧ x.digests (UInt16.ofNat c) = none) ∧
    (leaves = false → (updateInnerVertexR E PP env key (some n) descendants leaves index s).1 = none) := by
  obtain ⟨x, hx, hv, hd⟩ := h
  unfold updateInnerVertexR
  cases leaves with
  | true =>
    rw [if_pos rfl]
    obtain ⟨v', h1, h2, h3, -⟩ := leafR_old E PP env key n descendants index s x hx
    rw [h1]
    exact ⟨⟨v', load_store_self hE henv key v' s, h3 _ hv, by rw [h2]; exact hd⟩, fun h => by cases h⟩
  | false =>
    rw [if_neg (by simp)]
    obtain ⟨v', h1, h2, h3, h4⟩ := innerR_old E PP env key n descendants index s x hx
    have hne : UInt16.ofNat c ≠ UInt16.ofNat index := fun h => hic rfl (ofNat16_inj hc hi h).symm
    have hd' : v'.digests (UInt16.ofNat c) = none := by rw [h2 _ hne]; exact hd
    rw [h1]
    refine ⟨⟨v', load_store_self hE henv key v' s, h3 _ hv, hd'⟩, fun _ => ?_⟩
    by_contra hsome
    have := h4 (Option.isSome_iff_ne_none.2 hsome) c hcN (h3 _ hv)
    rw [hd'] at this
    cases this

/-- A poisoned vertex stays poisoned, whatever is put, and nothing can be put below its children. -/
theorem poisoned_put {E : Curve G1 G2 GT} (hE : E.Lawful) {env : Env} (henv : env.Lawful) (PP : PP G1 G2 GT)
    (F : ℕ) (a : Data) (path pre q : List ℕ) (c : ℕ) (v : Sparse.Vertex Data) (hv : KeysOk pre v) (s : State)
    (hp : ∀ x ∈ path, x < 65536) (hc : c < 65536) (hcN : c < PP.N) (h : Poisoned E pre q c v s.db) :
    Poisoned E pre q c (putAtR F (updateInnerVertexR E PP env) (some a) path (keyOf pre) v s).vertex
      (putAtR F (updateInnerVertexR E PP env) (some a) path (keyOf pre) v s).state.db ∧
    (q <+: path → q.length + 2 ≤ path.length →
      (putAtR F (updateInnerVertexR E PP env) (some a) path (keyOf pre) v s).ok = false) := by
  induction path generalizing pre q v s with
  | nil =>
    refine ⟨⟨?_, ?_, h.vertex, h.missing⟩, fun _ hl => by simp at hl⟩
    · cases q with
      | nil => exact ⟨_, a, rfl, rfl⟩
      | cons x t => exact h.data
    · obtain ⟨u, n, h1, h2⟩ := h.leaf
      exact ⟨u, n, by cases q <;> exact h1, h2⟩
  | cons p rest ih =>
    have hchild := hv.child p
    rw [childKey_keyOf] at hchild
    have h0 := hv [] v rfl
    rw [List.append_nil] at h0
    have hfoot := fun k hk => putAtR_footprint E PP env F (some a) rest (pre ++ [p]) _ hchild s k hk
    -- what the round at `v` does to the database
    have hround := roundR_cases F (updateInnerVertexR E PP env) v rest.isEmpty p
      (putAtR F (updateInnerVertexR E PP env) (some a) rest (keyOf (pre ++ [p]))
        ((descGet v.desc p).getD (.mk (keyOf (pre ++ [p])) none [])) s)
    have hdb : ∀ k, k ≠ keyOf pre →
        (putAtR F (updateInnerVertexR E PP env) (some a) (p :: rest) (keyOf pre) v s).state.db k =
        (putAtR F (updateInnerVertexR E PP env) (some a) rest (keyOf (pre ++ [p]))
          ((descGet v.desc p).getD (.mk (keyOf (pre ++ [p])) none [])) s).state.db k := by
      intro k hk
      rw [putAtR_cons, childKey_keyOf]
      rcases hround with ⟨-, -, h⟩ | ⟨-, raw, -, h, -⟩
      · rw [h]
      · rw [h, updateR_footprint]
        rwa [h0]
    have hkey : ∀ t : List ℕ, t ≠ [] → keyOf (pre ++ t) ≠ keyOf pre := by
      intro t ht h
      have := congrArg List.length (keyOf_injective h)
      rw [List.length_append] at this
      exact ht (List.length_eq_zero_iff.1 (by omega))
    cases q with
    | cons x t =>
      by_cases hx : p = x
      · subst hx
        have hg : ∀ t' : List ℕ, t' ≠ [] →
            find t' ((descGet v.desc p).getD (.mk (keyOf (pre ++ [p])) none [])) = find (p :: t') v :=
          fun t' ht' => find_getD v p _ t' ht'
        have hpc : Poisoned E (pre ++ [p]) t c ((descGet v.desc p).getD (.mk (keyOf (pre ++ [p])) none [])) s.db := by
          obtain ⟨u, n, h1, h2⟩ := h.data
          refine ⟨⟨u, n, ?_, h2⟩, ?_, ?_, ?_⟩
          · rw [find_cons] at h1
            obtain ⟨w, hw, h1⟩ := Option.bind_eq_some_iff.1 h1
            rw [hw]; exact h1
          · obtain ⟨u, n, h1, h2⟩ := h.leaf
            exact ⟨u, n, by rw [hg _ (by simp)]; exact h1, h2⟩
          · have := h.vertex
            rwa [show pre ++ p :: t = pre ++ [p] ++ t by simp] at this
          · have := h.missing
            rwa [show pre ++ (p :: t ++ [c]) = pre ++ [p] ++ (t ++ [c]) by simp] at this
        obtain ⟨i1, i2⟩ := ih (pre ++ [p]) t _ hchild s (fun y hy => hp y (by simp [hy])) hpc
        refine ⟨⟨?_, ?_, ?_, ?_⟩, fun hpre hlen => ?_⟩
        · obtain ⟨u, n, h1, h2⟩ := i1.data
          exact ⟨u, n, by rw [find_putAtR_cons, if_pos rfl, childKey_keyOf]; exact h1, h2⟩
        · obtain ⟨u, n, h1, h2⟩ := i1.leaf
          exact ⟨u, n, by rw [List.cons_append, find_putAtR_cons, if_pos rfl, childKey_keyOf]; exact h1, h2⟩
        · obtain ⟨y, h1, h2, h3⟩ := i1.vertex
          refine ⟨y, ?_, h2, h3⟩
          rw [show pre ++ p :: t = pre ++ [p] ++ t by simp, ← h1]
          exact load_congr E (hdb _ (by rw [List.append_assoc]; exact hkey _ (by simp)))
        · rw [show pre ++ (p :: t ++ [c]) = pre ++ [p] ++ (t ++ [c]) by simp, ← i1.missing]
          exact load_congr E (hdb _ (by rw [List.append_assoc]; exact hkey _ (by simp)))
        · have hok := i2 (List.cons_prefix_cons.1 hpre).2 (by simpa using hlen)
          rw [putAtR_cons, childKey_keyOf, roundR_not_ok _ _ _ _ _ _ hok]
      · have hne : ∀ t' q', keyOf (pre ++ x :: t') ≠ keyOf (pre ++ [p] ++ q') := by
          intro t' q' h
          have := keyOf_injective h
          rw [List.append_assoc, List.append_cancel_left_eq] at this
          simp only [List.cons_append, List.nil_append, List.cons.injEq] at this
          exact hx this.1.symm
        have hsame : ∀ t', load E (putAtR F (updateInnerVertexR E PP env) (some a) (p :: rest) (keyOf pre) v s).state.db
            (keyOf (pre ++ x :: t')) = load E s.db (keyOf (pre ++ x :: t')) := fun t' =>
          load_congr E ((hdb _ (hkey _ (by simp))).trans (hfoot _ fun q _ _ => hne t' q))
        refine ⟨⟨?_, ?_, ?_, ?_⟩, fun hpre _ => absurd (List.cons_prefix_cons.1 hpre).1.symm hx⟩
        · obtain ⟨u, n, h1, h2⟩ := h.data
          exact ⟨u, n, by rw [find_putAtR_cons, if_neg hx]; exact h1, h2⟩
        · obtain ⟨u, n, h1, h2⟩ := h.leaf
          exact ⟨u, n, by rw [List.cons_append, find_putAtR_cons, if_neg hx]; exact h1, h2⟩
        · rw [hsame]; exact h.vertex
        · rw [List.cons_append, hsame]; exact h.missing
    | nil =>
      obtain ⟨u0, n, hu0, hn⟩ := h.data
      rw [find_nil, Option.some.injEq] at hu0
      subst hu0
      obtain ⟨ul, nl, hul, hnl⟩ := h.leaf
      have hvert := h.vertex
      have hmiss := h.missing
      rw [List.append_nil] at hvert
      rw [List.nil_append] at hmiss hul
      have hpre' : load E (putAtR F (updateInnerVertexR E PP env) (some a) rest (keyOf (pre ++ [p]))
          ((descGet v.desc p).getD (.mk (keyOf (pre ++ [p])) none [])) s).state.db (keyOf pre) =
          load E s.db (keyOf pre) := load_congr E (hfoot _ fun q _ _ h => by
        rw [List.append_assoc] at h
        exact hkey _ (by simp) h.symm)
      -- the child `c`, its data and its key
      have hmiss' : (∃ u n, find [c] (putAtR F (updateInnerVertexR E PP env) (some a) (p :: rest) (keyOf pre) v s).vertex
            = some u ∧ u.data = some n) ∧
          load E (putAtR F (updateInnerVertexR E PP env) (some a) rest (keyOf (pre ++ [p]))
            ((descGet v.desc p).getD (.mk (keyOf (pre ++ [p])) none [])) s).state.db (keyOf (pre ++ [c])) = none ∧
          (p = c → rest ≠ [] → (putAtR F (updateInnerVertexR E PP env) (some a) rest (keyOf (pre ++ [p]))
            ((descGet v.desc p).getD (.mk (keyOf (pre ++ [p])) none [])) s).ok = false) := by
        by_cases hpc : p = c
        · subst hpc
          rw [find_putAtR_cons, if_pos rfl, childKey_keyOf]
          cases rest with
          | nil => exact ⟨⟨_, a, rfl, rfl⟩, hmiss, fun _ h => absurd rfl h⟩
          | cons p2 rest2 =>
            have hw : (descGet v.desc p).getD (.mk (keyOf (pre ++ [p])) none []) = ul := by
              rw [find_cons] at hul
              obtain ⟨w, hw, h1⟩ := Option.bind_eq_some_iff.1 hul
              rw [find_nil, Option.some.injEq] at h1
              rw [hw, ← h1]; rfl
            rw [hw] at hchild ⊢
            obtain ⟨m1, m2, m3⟩ := putAtR_missing E PP env F (some a) (p2 :: rest2) (pre ++ [p]) (by simp) ul hchild s nl
              hnl hmiss
            exact ⟨⟨_, nl, rfl, m2⟩, m3, fun _ _ => m1⟩
        · rw [find_putAtR_cons, if_neg hpc]
          refine ⟨⟨ul, nl, hul, hnl⟩, ?_, fun h => absurd h hpc⟩
          rw [← hmiss]
          refine load_congr E (hfoot _ fun q _ _ h => ?_)
          have := keyOf_injective h
          rw [List.append_assoc, List.append_cancel_left_eq] at this
          simp only [List.cons_append, List.nil_append, List.cons.injEq] at this
          exact hpc this.1.symm
      obtain ⟨m1, m2, m3⟩ := hmiss'
      have hleaf : load E (putAtR F (updateInnerVertexR E PP env) (some a) (p :: rest) (keyOf pre) v s).state.db
          (keyOf (pre ++ [c])) = none := by
        rw [← m2]
        exact load_congr E (hdb _ (hkey _ (by simp)))
      rw [putAtR_cons, childKey_keyOf] at m1 hleaf ⊢
      rcases hround with ⟨r1, r2, r3⟩ | ⟨r0, raw, -, r3, r4⟩
      · refine ⟨⟨⟨_, n, rfl, r2.trans hn⟩, m1, ?_, hleaf⟩, fun _ _ => r1⟩
        rw [r3, List.append_nil, hpre']
        exact hvert
      · have hic : rest.isEmpty = false → p ≠ c := by
          intro hre hpc
          have := m3 hpc (by rintro rfl; simp at hre)
          rw [r0] at this
          cases this
        have hq := updateR_poisoned hE henv PP (keyOf pre) n raw rest.isEmpty p c hc hcN (hp p (by simp)) hic _
          (by rw [hpre']; exact hvert)
        rw [h0, hn] at r3 r4
        refine ⟨⟨?_, m1, ?_, hleaf⟩, fun _ hlen => ?_⟩
        · rcases r4 with ⟨-, -, h6⟩ | ⟨-, h6⟩
          · exact ⟨_, n, rfl, h6⟩
          · have := updateR_result E PP env (keyOf pre) (some n) raw rest.isEmpty p
              (putAtR F (updateInnerVertexR E PP env) (some a) rest (keyOf (pre ++ [p]))
                ((descGet v.desc p).getD (.mk (keyOf (pre ++ [p])) none [])) s).state
            rw [h6] at this
            rcases this with h7 | h7
            · cases h7
            · exact ⟨_, _, rfl, Option.some.inj h7⟩
        · rw [r3, List.append_nil]
          exact hq.1
        · have hre : rest.isEmpty = false := by
            cases rest with
            | nil => simp at hlen
            | cons => rfl
          have := hq.2 hre
          rcases r4 with ⟨h5, -, -⟩ | ⟨-, h6⟩
          · exact h5
          · rw [this] at h6
            cases h6

end PoL.Verkle
