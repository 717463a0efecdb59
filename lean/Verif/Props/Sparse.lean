import Verif.Proofs.Sparse

/-!
# The generic tree (C34–C36)
-/

set_option linter.unusedSectionVars false

namespace PoL.Props
open Spec Sparse

variable {D σ : Type}

/-! ## C34: the tree is a map from paths -/

/-- C34: after any sequence of `Put`s on an empty tree, `Get` at a path that is not a proper prefix of a
path written to returns the value last put at that path, and `false` if there is none. -/
theorem C34_get_after_puts (t0 t : Tree D σ) (h0 : t0.root = none) (hist : List (Str × Option D)) (s s' : σ)
    (h : t0.puts hist s = some (t, s')) (id : Str) (q : List ℕ) (hq : t0.id2Path id = some q)
    (hpre : ∀ e ∈ hist, ∀ p, t0.id2Path e.1 = some p → q <+: p → q = p) :
    (∀ d, lastPut (hist.map fun e => (t0.id2Path e.1, e.2)) (some q) = some d →
      ∃ vs, t.get id = some (some (d, vs)) ∧ vs.length = q.length) ∧
    (lastPut (hist.map fun e => (t0.id2Path e.1, e.2)) (some q) = none → t.get id = some none) := by
  obtain ⟨hid, -, -⟩ := puts_fields hist t s' h
  have key := puts_data h0 q hist t s' h hpre
  unfold Tree.get
  rw [hid, hq]
  simp only [Option.pure_def, Option.bind_eq_bind, Option.bind_some]
  constructor
  · intro d hd
    rw [hd] at key
    cases hr : t.root with
    | none => simp [hr] at key
    | some v =>
      rw [hr, Option.bind_some] at key
      cases hf : find q v with
      | none => simp [hf] at key
      | some u =>
        obtain ⟨vs, h1, h2⟩ := getAt_eq q v u hf
        rw [hf, Option.map_some, Option.some.injEq] at key
        exact ⟨vs, by rw [← key]; simp only [h1], h2⟩
  · intro hn
    rw [hn] at key
    cases hr : t.root with
    | none => rfl
    | some v =>
      rw [hr, Option.bind_some, Option.map_eq_none_iff] at key
      simp only [getAt_none q v key]

/-- C34 for paths of equal length. -/
theorem C34_get_after_puts_equal_length (t0 t : Tree D σ) (h0 : t0.root = none)
    (hist : List (Str × Option D)) (s s' : σ) (h : t0.puts hist s = some (t, s')) (L : ℕ)
    (hL : ∀ e ∈ hist, ∀ p, t0.id2Path e.1 = some p → p.length = L) (id : Str) (q : List ℕ)
    (hq : t0.id2Path id = some q) (hqL : q.length = L) :
    (∀ d, lastPut (hist.map fun e => (t0.id2Path e.1, e.2)) (some q) = some d →
      ∃ vs, t.get id = some (some (d, vs)) ∧ vs.length = L) ∧
    (lastPut (hist.map fun e => (t0.id2Path e.1, e.2)) (some q) = none → t.get id = some none) := by
  have := C34_get_after_puts t0 t h0 hist s s' h id q hq (fun e he p hp hpre =>
    hpre.eq_of_length (by rw [hqL, hL e he p hp]))
  rwa [hqL] at this

/-- C34: a sequence of `Put`s panics only if the path function or the callback does, or a path component is
not below the fan-out. -/
theorem C34_puts_return (t0 : Tree D σ) (h0 : t0.root = none)
    (hupd : ∀ k n ds l i s, (t0.update k n ds l i s).isSome) (hist : List (Str × Option D)) (s : σ)
    (hids : ∀ e ∈ hist, ∃ p, t0.id2Path e.1 = some p ∧ ∀ x ∈ p, x < t0.fanOut) :
    ∃ t s', t0.puts hist s = some (t, s') := by
  suffices H : ∃ t s', t0.puts hist s = some (t, s') ∧
      ∀ q u x w, find q (t.root.getD (.mk [] none [])) = some u → descGet u.desc x = some w → x < t0.fanOut by
    obtain ⟨t, s', h, -⟩ := H
    exact ⟨t, s', h⟩
  induction hist using List.reverseRecOn with
  | nil =>
    refine ⟨t0, s, rfl, ?_⟩
    intro q u x w hq hx
    rw [h0, Option.getD_none] at hq
    cases q with
    | nil =>
      rw [find_nil, Option.some.injEq] at hq
      rw [← hq] at hx
      simp [descGet] at hx
    | cons y t => rw [find_fresh _ _ (by simp)] at hq; simp at hq
  | append_singleton hist e ih =>
    obtain ⟨t, s1, ht, hinv⟩ := ih (fun e he => hids e (by simp [he]))
    obtain ⟨hid, hfo, hup⟩ := puts_fields hist t s1 ht
    obtain ⟨p, hp, hlt⟩ := hids e (by simp)
    obtain ⟨v', s2, hput, hinv'⟩ := putAt_total (data := e.2) hupd p hlt [] (t.root.getD (.mk [] none [])) s1 hinv
    refine ⟨{ t with root := some v' }, s2, ?_, by simpa using hinv'⟩
    rw [puts_concat, ht, Option.bind_some]
    unfold Tree.put
    dsimp only
    rw [hid, hfo, hup, hp]
    exact obind_step rfl (obind_step hput rfl)

/-! ## C35: the update protocol -/

/-- C35: in a tree built by `Put`s, a further `Put` at path `p` makes exactly the calls listed in
`expectedCalls`: one for each proper prefix of `p`, the longest first, with the vertex's key, its data
before the `Put`, the data its children have after the `Put`, the leaf flag on the first call only, and the
index of the child on the path. -/
theorem C35_update_protocol (t0 t t' : Tree D σ) (h0 : t0.root = none) (hist : List (Str × Option D))
    (s0 s s' : σ) (hrun : t0.puts hist s0 = some (t, s)) (id : Str) (d : Option D)
    (h : t.put id d s = some (t', s')) (p : List ℕ) (hp : t.id2Path id = some p) (log : List (Call D)) :
    ({ id2Path := t.id2Path, update := recording t.update, fanOut := t.fanOut, root := t.root } :
        Tree D (σ × List (Call D))).put id d (s, log)
      = some ({ id2Path := t.id2Path, update := recording t.update, fanOut := t.fanOut, root := t'.root },
          (s', log ++ expectedCalls t.root t'.root t.fanOut p)) := by
  obtain ⟨path, root', hp', hput, rfl⟩ := put_some h
  rw [hp, Option.some.injEq] at hp'
  subst hp'
  have hk := keysOk_puts h0 hist t s hrun
  have hrec := putAt_recording log hk hput
  unfold Tree.put
  refine obind_step hp ?_
  refine obind_step hrec ?_
  simp only [Option.pure_def, Option.some.injEq, Prod.mk.injEq, true_and]
  congr 1
  unfold expectedCalls
  apply List.map_congr_left
  intro k _
  simp only [List.nil_append, dataAt_eq, Option.getD_some]

/-! ## C36: aggregating trees -/

/-- C36: if the callback's result is a function `f` of the children's data, then after any sequence of
`Put`s with paths of length `L` every vertex above the leaves holds `f` of its children's data. -/
theorem C36_inner_vertices_consistent (t0 t : Tree D σ) (h0 : t0.root = none)
    (f : List (Option D) → Option D)
    (hf : ∀ k n ds l i s r, t0.update k n ds l i s = some r → r.1 = f ds)
    (hist : List (Str × Option D)) (s s' : σ) (h : t0.puts hist s = some (t, s')) (L : ℕ)
    (hL : ∀ e ∈ hist, ∀ p, t0.id2Path e.1 = some p → p.length = L) (q : List ℕ) (hq : q.length < L)
    (hpres : present t.root q) :
    dataAt t.root q = f ((List.range t0.fanOut).map fun i => dataAt t.root (q ++ [i])) := by
  have step : ∀ (path : List ℕ) (ps : Str) (d : Option D) (v v' : Vertex D) (s s' : σ),
      putAt t0.fanOut t0.update d path ps v s = some (v', s') →
      (∀ q, q ≠ [] → q.length < path.length → ∀ u, find q v = some u →
        u.data = f ((List.range t0.fanOut).map fun i => (find (q ++ [i]) v).bind Vertex.data)) →
      ∀ q, q.length < path.length → ∀ u, find q v' = some u →
        u.data = f ((List.range t0.fanOut).map fun i => (find (q ++ [i]) v').bind Vertex.data) := by
    intro path
    induction path with
    | nil => intro _ _ _ _ _ _ _ _ q hq; simp at hq
    | cons p rest ih =>
      intro ps d v v' s s' hput hv q hq u hu
      obtain ⟨child', s1, d', h1, h2, h3, rfl⟩ := putAt_cons hput
      cases q with
      | nil =>
        rw [find_nil, Option.some.injEq] at hu
        rw [← hu, Vertex.data_mk]
        refine (hf _ _ _ _ _ _ _ h3).trans ?_
        congr 1
        apply List.map_congr_left
        intro i _
        rw [List.nil_append, find_cons, Vertex.desc_mk]
        cases descGet (descSet v.desc p child') i <;> rfl
      | cons x t =>
        have hlen : t.length < rest.length := by simpa using hq
        rw [find_cons, Vertex.desc_mk, descGet_descSet] at hu
        have hfx : ∀ r, find (x :: r) (Vertex.mk v.key d' (descSet v.desc p child'))
            = if p = x then find r child' else find (x :: r) v := by
          intro r
          rw [find_cons, Vertex.desc_mk, descGet_descSet]
          split_ifs <;> rfl
        simp only [List.cons_append, hfx]
        by_cases hpx : p = x
        · rw [if_pos hpx, Option.bind_some] at hu
          simp only [if_pos hpx]
          refine ih _ _ _ _ _ _ h1 ?_ t hlen u hu
          intro q' hq' hlen' u' hu'
          rw [find_getD _ _ _ _ hq'] at hu'
          have := hv (p :: q') (by simp) (by simpa using hlen') u' hu'
          rw [this]
          congr 1
          apply List.map_congr_left
          intro i _
          rw [find_getD _ _ _ _ (by simp)]
          rfl
        · rw [if_neg hpx] at hu
          simp only [if_neg hpx]
          exact hv (x :: t) (by simp) hq u (by rw [find_cons]; exact hu)
  have main : ∀ hist t s', t0.puts hist s = some (t, s') →
      (∀ e ∈ hist, ∀ p, t0.id2Path e.1 = some p → p.length = L) →
      ∀ v, t.root = some v → ∀ q, q.length < L → ∀ u, find q v = some u →
        u.data = f ((List.range t0.fanOut).map fun i => (find (q ++ [i]) v).bind Vertex.data) := by
    apply puts_induction (P := fun hist t _ => (∀ e ∈ hist, ∀ p, t0.id2Path e.1 = some p → p.length = L) →
      ∀ v, t.root = some v → ∀ q, q.length < L → ∀ u, find q v = some u →
        u.data = f ((List.range t0.fanOut).map fun i => (find (q ++ [i]) v).bind Vertex.data))
    · intro _ v hv; rw [h0] at hv; simp at hv
    · intro hist e t s1 t' s2 hrun ih hput hL v hv q hq u hu
      obtain ⟨hid, hfo, hup⟩ := puts_fields hist t s1 hrun
      obtain ⟨path, root', hp, hroot, rfl⟩ := put_some hput
      rw [hid] at hp
      rw [hfo, hup] at hroot
      simp only [Option.some.injEq] at hv
      subst hv
      have hpl := hL e (by simp) path hp
      refine step path [] e.2 _ _ _ _ hroot ?_ q (by rw [hpl]; exact hq) u hu
      intro q hq0 hqL u hu
      cases hr : t.root with
      | none => rw [hr, Option.getD_none, find_fresh _ _ hq0] at hu; simp at hu
      | some w =>
        rw [hr, Option.getD_some] at hu
        exact ih (fun e he => hL e (by simp [he])) w hr q (by rw [← hpl]; exact hqL) u hu
  unfold present at hpres
  cases hr : t.root with
  | none => simp [hr] at hpres
  | some v =>
    rw [hr, Option.bind_some, getAt_isSome_iff] at hpres
    obtain ⟨u, hu⟩ := Option.isSome_iff_exists.1 hpres
    have := main hist t s' h hL v hr q hq u hu
    simp only [dataAt_eq, Option.getD_some, hu, Option.bind_some]
    exact this

/-! ## A concrete tree -/

/-- A tree over two-component paths whose inner vertices hold the sum of their children. -/
def exampleTree : Tree ℕ Unit where
  id2Path := fun s => match s with
    | ['a'] => some [0, 1]
    | ['b'] => some [0, 2]
    | ['c'] => some [1, 1]
    | _ => none
  update := fun _ _ ds _ _ _ => some (some ((ds.map fun d => d.getD 0).sum), ())
  fanOut := 3
  root := none

/-- The hypotheses of the theorems above are met by a concrete history, and the results are as expected. -/
example : ∃ t, exampleTree.puts [(['a'], some 5), (['c'], some 7), (['a'], some 6), (['b'], some 1)] ()
    = some (t, ()) ∧ (∃ vs, t.get ['a'] = some (some (some 6, vs)) ∧ vs.length = 2) ∧
      dataAt t.root [] = some 14 ∧ dataAt t.root [0] = some 7 ∧ present t.root [0] := by
  obtain ⟨t, s, h⟩ := C34_puts_return exampleTree rfl (fun _ _ _ _ _ _ => rfl)
    [(['a'], some 5), (['c'], some 7), (['a'], some 6), (['b'], some 1)] ()
    (by simp [exampleTree])
  refine ⟨t, h, ?_, ?_⟩
  · refine (C34_get_after_puts_equal_length exampleTree t rfl _ () s h 2 ?_ ['a'] [0, 1] rfl rfl).1 (some 6) rfl
    simp [exampleTree]
  · have := Option.some.inj h
    simp only [Prod.mk.injEq] at this
    rw [← this.1]
    refine ⟨rfl, rfl, rfl⟩

end PoL.Props
