import Verif.Proofs.RecoverTree

/-!
# What a panicking `Put` leaves behind: how a vertex is poisoned
-/

set_option linter.unusedSectionVars false

namespace PoL.Verkle
open Sparse Spec

variable {G1 G2 GT : Type} [AddCommGroup G1] [Module Zr G1] [AddCommGroup G2] [Module Zr G2]
  [AddCommGroup GT] [Module Zr GT] [DecidableEq G1] [DecidableEq GT]

/-- Nothing was written at child `c` of `q` or below. -/
structure Untouched (E : Curve G1 G2 GT) (pre q : List ℕ) (c : ℕ) (v : Sparse.Vertex Data) (db : Db) : Prop where
  absent : find (q ++ [c]) v = none
  missing : load E db (keyOf (pre ++ (q ++ [c]))) = none
  digest : ∀ x, load E db (keyOf (pre ++ q)) = some x → x.digests (UInt16.ofNat c) = none

theorem key_longer {pre t : List ℕ} (ht : t ≠ []) : keyOf (pre ++ t) ≠ keyOf pre := by
  intro h
  have := congrArg List.length (keyOf_injective h)
  rw [List.length_append] at this
  exact ht (List.length_eq_zero_iff.1 (by omega))

theorem key_other {pre : List ℕ} {x p : ℕ} (hx : p ≠ x) (t q : List ℕ) :
    keyOf (pre ++ x :: t) ≠ keyOf (pre ++ [p] ++ q) := by
  intro h
  have := keyOf_injective h
  rw [List.append_assoc, List.append_cancel_left_eq] at this
  simp only [List.cons_append, List.nil_append, List.cons.injEq] at this
  exact hx this.1.symm

/-- The database after a put, at other keys than that of the vertex itself. -/
theorem putAtR_db_below (E : Curve G1 G2 GT) (PP : PP G1 G2 GT) (env : Env) (F : ℕ) (data : Option Data)
    (p : ℕ) (rest pre : List ℕ) (v : Sparse.Vertex Data) (hv : KeysOk pre v) (s : State) (k : Str) (hk : k ≠ keyOf pre) :
    (putAtR F (updateInnerVertexR E PP env) data (p :: rest) (keyOf pre) v s).state.db k =
      (putAtR F (updateInnerVertexR E PP env) data rest (keyOf (pre ++ [p]))
        ((descGet v.desc p).getD (.mk (keyOf (pre ++ [p])) none [])) s).state.db k := by
  have h0 := hv [] v rfl
  rw [List.append_nil] at h0
  rw [putAtR_cons, childKey_keyOf]
  rcases roundR_cases F (updateInnerVertexR E PP env) v rest.isEmpty p
      (putAtR F (updateInnerVertexR E PP env) data rest (keyOf (pre ++ [p]))
        ((descGet v.desc p).getD (.mk (keyOf (pre ++ [p])) none [])) s) with ⟨-, -, h⟩ | ⟨-, raw, -, h, -⟩
  · rw [h]
  · rw [h, updateR_footprint]
    rwa [h0]

theorem rawData_get {D : Type} {desc : List (ℕ × Sparse.Vertex D)} {F : ℕ} {raw : List (Option D)}
    (h : rawData desc F = some raw) (j : ℕ) (d : D) :
    raw[j]? = some (some d) ↔ j < F ∧ (descGet desc j).bind Sparse.Vertex.data = some d := by
  obtain ⟨rfl, -⟩ := rawData_some _ _ _ h
  by_cases hj : j < F
  · simp [hj]
  · simp [hj]

/-- The callback at a vertex without child `c` gives it no digest for `c`. -/
theorem updateR_untouched {E : Curve G1 G2 GT} (hE : E.Lawful) {env : Env} (henv : env.Lawful) (PP : PP G1 G2 GT)
    (key : Str) (node : Option Data) (descendants : List (Option Data)) (leaves : Bool) (index c : ℕ)
    (hc : c < 65536) (hi : index < 65536) (hic : leaves = false → index ≠ c) (s : State)
    (hlen : descendants.length ≤ 65536) (hdc : leaves = false → ∀ d, descendants[c]? ≠ some (some d))
    (h : ∀ x, load E s.db key = some x → x.digests (UInt16.ofNat c) = none) :
    ∀ x, load E (updateInnerVertexR E PP env key node descendants leaves index s).2.db key = some x →
      x.digests (UInt16.ofNat c) = none := by
  intro x hx
  cases node with
  | none =>
    unfold updateInnerVertexR at hx
    cases leaves with
    | true =>
      rw [if_pos rfl] at hx
      rcases leafR_new E PP env key descendants index s with h1 | ⟨v', h1, h2, -⟩
      · rw [h1] at hx; exact h x hx
      · rw [h1] at hx
        rw [show (returned E env key v' s).2 = store E env key v' s from rfl, load_store_self hE henv,
          Option.some.injEq] at hx
        rw [← hx]; exact h2 _
    | false =>
      rw [if_neg (by simp)] at hx
      rcases innerR_new E PP env key descendants index s with h1 | ⟨v', h1, h2⟩
      · rw [h1] at hx; exact h x hx
      · rw [h1] at hx
        rw [show (returned E env key v' s).2 = store E env key v' s from rfl, load_store_self hE henv,
          Option.some.injEq] at hx
        rw [← hx]
        refine h2 _ fun j d hj hjc => ?_
        have hjl : j < descendants.length := by
          by_contra hge
          rw [List.getElem?_eq_none (by omega)] at hj
          cases hj
        have := ofNat16_inj (by omega) hc hjc
        subst this
        exact hdc rfl d hj
  | some n =>
    cases hl : load E s.db key with
    | none =>
      rw [updateR_missing E PP env key n descendants leaves index s hl] at hx
      exact h x hx
    | some y =>
      unfold updateInnerVertexR at hx
      cases leaves with
      | true =>
        rw [if_pos rfl] at hx
        obtain ⟨v', h1, h2, -⟩ := leafR_old E PP env key n descendants index s y hl
        rw [h1, load_store_self hE henv, Option.some.injEq] at hx
        rw [← hx, h2]; exact h y hl
      | false =>
        rw [if_neg (by simp)] at hx
        obtain ⟨v', h1, h2, -⟩ := innerR_old E PP env key n descendants index s y hl
        rw [h1, load_store_self hE henv, Option.some.injEq] at hx
        rw [← hx, h2 _ fun h => hic rfl (ofNat16_inj hc hi h).symm]; exact h y hl

/-- Puts elsewhere leave a child untouched. -/
theorem untouched_put {E : Curve G1 G2 GT} (hE : E.Lawful) {env : Env} (henv : env.Lawful) (PP : PP G1 G2 GT)
    (F : ℕ) (hF : F ≤ 65536) (a : Option Data) (path pre q : List ℕ) (c : ℕ) (v : Sparse.Vertex Data) (hv : KeysOk pre v)
    (s : State) (hp : ∀ x ∈ path, x < 65536) (hc : c < 65536) (h : Untouched E pre q c v s.db)
    (hpath : ¬ (q ++ [c]) <+: path) :
    Untouched E pre q c (putAtR F (updateInnerVertexR E PP env) a path (keyOf pre) v s).vertex
      (putAtR F (updateInnerVertexR E PP env) a path (keyOf pre) v s).state.db := by
  induction path generalizing pre q v s with
  | nil =>
    refine ⟨?_, h.missing, h.digest⟩
    have := h.absent
    cases q <;> exact this
  | cons p rest ih =>
    have hchild := hv.child p
    rw [childKey_keyOf] at hchild
    have hfoot := fun k hk => putAtR_footprint E PP env F a rest (pre ++ [p]) _ hchild s k hk
    have hdb := putAtR_db_below E PP env F a p rest pre v hv s
    cases q with
    | cons x t =>
      by_cases hx : p = x
      · subst hx
        have hpc : Untouched E (pre ++ [p]) t c ((descGet v.desc p).getD (.mk (keyOf (pre ++ [p])) none [])) s.db := by
          refine ⟨?_, ?_, ?_⟩
          · rw [find_getD v p _ _ (by simp)]; exact h.absent
          · have := h.missing
            rwa [show pre ++ (p :: t ++ [c]) = pre ++ [p] ++ (t ++ [c]) by simp] at this
          · have := h.digest
            rwa [show pre ++ p :: t = pre ++ [p] ++ t by simp] at this
        have i1 := ih (pre ++ [p]) t _ hchild s (fun y hy => hp y (by simp [hy])) hpc
          (fun h => hpath (List.cons_prefix_cons.2 ⟨rfl, h⟩))
        refine ⟨?_, ?_, fun y hy => ?_⟩
        · rw [List.cons_append, find_putAtR_cons, if_pos rfl, childKey_keyOf]; exact i1.absent
        · rw [show pre ++ (p :: t ++ [c]) = pre ++ [p] ++ (t ++ [c]) by simp, ← i1.missing]
          exact load_congr E (hdb _ (by rw [List.append_assoc]; exact key_longer (by simp)))
        · refine i1.digest y ?_
          rw [← hy, show pre ++ p :: t = pre ++ [p] ++ t by simp]
          exact (load_congr E (hdb _ (by rw [List.append_assoc]; exact key_longer (by simp)))).symm
      · have hsame : ∀ t', load E (putAtR F (updateInnerVertexR E PP env) a (p :: rest) (keyOf pre) v s).state.db
            (keyOf (pre ++ x :: t')) = load E s.db (keyOf (pre ++ x :: t')) := fun t' =>
          load_congr E ((hdb _ (key_longer (by simp))).trans (hfoot _ fun q _ _ => key_other hx t' q))
        refine ⟨?_, ?_, ?_⟩
        · rw [List.cons_append, find_putAtR_cons, if_neg hx]; exact h.absent
        · rw [List.cons_append, hsame]; exact h.missing
        · rw [hsame]; exact h.digest
    | nil =>
      have hpc : p ≠ c := fun h => hpath (by rw [h]; simp)
      have hmiss := h.missing
      have habs := h.absent
      have hdig := h.digest
      rw [List.nil_append] at hmiss habs
      rw [List.append_nil] at hdig
      refine ⟨?_, ?_, ?_⟩
      · rw [List.nil_append, find_putAtR_cons, if_neg hpc]; exact habs
      · rw [List.nil_append, ← hmiss]
        exact load_congr E ((hdb _ (key_longer (by simp))).trans (hfoot _ fun q _ _ => key_other hpc [] q))
      · rw [List.append_nil]
        have hpre' : ∀ y, load E (putAtR F (updateInnerVertexR E PP env) a rest (keyOf (pre ++ [p]))
            ((descGet v.desc p).getD (.mk (keyOf (pre ++ [p])) none [])) s).state.db (keyOf pre) = some y →
            y.digests (UInt16.ofNat c) = none := by
          intro y hy
          refine hdig y ?_
          rw [← hy]
          exact (load_congr E (hfoot _ fun q _ _ h => by
            rw [List.append_assoc] at h
            exact key_longer (by simp) h.symm)).symm
        have h0 := hv [] v rfl
        rw [List.append_nil] at h0
        rw [putAtR_cons, childKey_keyOf]
        rcases roundR_cases F (updateInnerVertexR E PP env) v rest.isEmpty p
          (putAtR F (updateInnerVertexR E PP env) a rest (keyOf (pre ++ [p]))
            ((descGet v.desc p).getD (.mk (keyOf (pre ++ [p])) none [])) s) with ⟨-, -, h⟩ | ⟨-, raw, hraw, h, -⟩
        · rw [h]; exact hpre'
        · rw [h, h0]
          refine updateR_untouched hE henv PP (keyOf pre) v.data raw rest.isEmpty p c hc (hp p (by simp))
            (fun _ => hpc) _ ?_ (fun _ d hd => ?_) hpre'
          · obtain ⟨rfl, -⟩ := rawData_some _ _ _ hraw
            simpa using hF
          · obtain ⟨-, hd⟩ := (rawData_get hraw c d).1 hd
            rw [descGet_descSet, if_neg hpc] at hd
            rw [find_cons] at habs
            cases hg : descGet v.desc c with
            | none => rw [hg] at hd; cases hd
            | some w => rw [hg] at habs; cases habs

/-- A put that returns at a child that was untouched poisons the vertex above. -/
theorem poisoned_of_put {E : Curve G1 G2 GT} (hE : E.Lawful) {env : Env} (henv : env.Lawful) (PP : PP G1 G2 GT)
    (F : ℕ) (a : Data) (pre q : List ℕ) (c : ℕ) (v : Sparse.Vertex Data) (hv : KeysOk pre v)
    (s : State) (h : Untouched E pre q c v s.db)
    (hok : (putAtR F (updateInnerVertexR E PP env) (some a) (q ++ [c]) (keyOf pre) v s).ok = true) :
    Poisoned E pre q c (putAtR F (updateInnerVertexR E PP env) (some a) (q ++ [c]) (keyOf pre) v s).vertex
      (putAtR F (updateInnerVertexR E PP env) (some a) (q ++ [c]) (keyOf pre) v s).state.db := by
  induction q generalizing pre v s with
  | cons p t ih =>
    rw [List.cons_append] at hok ⊢
    have hchild := hv.child p
    rw [childKey_keyOf] at hchild
    have hdb := putAtR_db_below E PP env F (some a) p (t ++ [c]) pre v hv s
    have hpc : Untouched E (pre ++ [p]) t c ((descGet v.desc p).getD (.mk (keyOf (pre ++ [p])) none [])) s.db := by
      refine ⟨?_, ?_, ?_⟩
      · rw [find_getD v p _ _ (by simp)]; exact h.absent
      · have := h.missing
        rwa [show pre ++ (p :: t ++ [c]) = pre ++ [p] ++ (t ++ [c]) by simp] at this
      · have := h.digest
        rwa [show pre ++ p :: t = pre ++ [p] ++ t by simp] at this
    have hok' : (putAtR F (updateInnerVertexR E PP env) (some a) (t ++ [c]) (keyOf (pre ++ [p]))
        ((descGet v.desc p).getD (.mk (keyOf (pre ++ [p])) none [])) s).ok = true := by
      by_contra hn
      rw [putAtR_cons, childKey_keyOf, roundR_not_ok _ _ _ _ _ _ (by simpa using hn)] at hok
      cases hok
    have i1 := ih (pre ++ [p]) _ hchild s hpc hok'
    refine ⟨?_, ?_, ?_, ?_⟩
    · obtain ⟨u, n, h1, h2⟩ := i1.data
      exact ⟨u, n, by rw [find_putAtR_cons, if_pos rfl, childKey_keyOf]; exact h1, h2⟩
    · obtain ⟨u, n, h1, h2⟩ := i1.leaf
      exact ⟨u, n, by rw [List.cons_append, find_putAtR_cons, if_pos rfl, childKey_keyOf]; exact h1, h2⟩
    · obtain ⟨y, h1, h2, h3⟩ := i1.vertex
      refine ⟨y, ?_, h2, h3⟩
      rw [show pre ++ p :: t = pre ++ [p] ++ t by simp, ← h1]
      exact load_congr E (hdb _ (by rw [List.append_assoc]; exact key_longer (by simp)))
    · rw [show pre ++ (p :: t ++ [c]) = pre ++ [p] ++ (t ++ [c]) by simp, ← i1.missing]
      exact load_congr E (hdb _ (by rw [List.append_assoc]; exact key_longer (by simp)))
  | nil =>
    rw [List.nil_append] at hok ⊢
    have hmiss := h.missing
    have habs := h.absent
    have hdig := h.digest
    rw [List.nil_append] at hmiss habs
    rw [List.append_nil] at hdig
    have h0 := hv [] v rfl
    rw [List.append_nil] at h0
    have hleaf : load E (putAtR F (updateInnerVertexR E PP env) (some a) [c] (keyOf pre) v s).state.db
        (keyOf (pre ++ [c])) = none := by
      rw [← hmiss]
      exact load_congr E (putAtR_db_below E PP env F (some a) c [] pre v hv s _ (key_longer (by simp)))
    have hself := find_putAtR_self F (updateInnerVertexR E PP env) (some a) [c] (keyOf pre) v s
    have hround := roundR_cases F (updateInnerVertexR E PP env) v true c
      (putAtR F (updateInnerVertexR E PP env) (some a) [] (keyOf (pre ++ [c]))
        ((descGet v.desc c).getD (.mk (keyOf (pre ++ [c])) none [])) s)
    rw [putAtR_cons, childKey_keyOf, List.isEmpty_nil] at hok hleaf hself ⊢
    rcases hround with ⟨r1, -, -⟩ | ⟨-, raw, hraw, r3, ⟨r4, -, -⟩ | ⟨-, r4⟩⟩
    · rw [r1] at hok; cases hok
    · rw [r4] at hok; cases hok
    · rw [h0] at r3 r4
      have hst : (putAtR F (updateInnerVertexR E PP env) (some a) [] (keyOf (pre ++ [c]))
        ((descGet v.desc c).getD (.mk (keyOf (pre ++ [c])) none [])) s).state = s := rfl
      rw [hst] at r3 r4
      have hrawc : raw[c]? = some (some a) := by
        obtain ⟨rfl, hlt⟩ := rawData_some _ _ _ hraw
        have hcF : c < F := by
          refine hlt c (putAtR F (updateInnerVertexR E PP env) (some a) [] (keyOf (pre ++ [c]))
            ((descGet v.desc c).getD (.mk (keyOf (pre ++ [c])) none [])) s).vertex ?_
          rw [descGet_descSet, if_pos rfl]
        rw [rawData_get hraw]
        refine ⟨hcF, ?_⟩
        rw [descGet_descSet, if_pos rfl]
        rfl
      have hres : (updateInnerVertexR E PP env (keyOf pre) v.data raw true c s).1 = some (some (.key (keyOf pre))) := by
        rcases updateR_result E PP env (keyOf pre) v.data raw true c s with h | h
        · rw [h] at r4; cases r4
        · exact h
      refine ⟨⟨_, .key (keyOf pre), rfl, ?_⟩, ?_, ?_, ?_⟩
      · rw [hres] at r4
        exact (Option.some.inj r4).symm
      · rw [List.nil_append]
        obtain ⟨u, hu, hd⟩ := Option.map_eq_some_iff.1 hself
        exact ⟨u, a, hu, hd⟩
      · rw [List.append_nil, r3]
        unfold updateInnerVertexR at hres ⊢
        rw [if_pos rfl] at hres ⊢
        cases hn : v.data with
        | none =>
          rw [hn] at hres
          rcases leafR_new E PP env (keyOf pre) raw c s with h1 | ⟨v', h1, h2, h3⟩
          · rw [h1] at hres; cases hres
          · rw [h1]
            exact ⟨v', load_store_self hE henv _ v' s, h3 c a hrawc, h2 _⟩
        | some n =>
          rw [hn] at hres
          cases hl : load E s.db (keyOf pre) with
          | none =>
            have := updateR_missing E PP env (keyOf pre) n raw true c s hl
            unfold updateInnerVertexR at this
            rw [if_pos rfl] at this
            rw [this] at hres
            cases hres
          | some y =>
            obtain ⟨v', h1, h2, h3, h4⟩ := leafR_old E PP env (keyOf pre) n raw c s y hl
            rw [h1]
            exact ⟨v', load_store_self hE henv _ v' s, h4 (by rw [hres]; rfl), by rw [h2]; exact hdig y hl⟩
      · rw [List.nil_append]; exact hleaf

end PoL.Verkle
