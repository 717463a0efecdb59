import Verif.Proofs.Linked
import Verif.Props.Sparse

/-! # C78: the linked vertices of the sparse tree -/

namespace PoL.Props
open Spec Sparse Linked

variable {D σ : Type}

/-- The inductive model of the empty tree. -/
def emptyTree (t0 : Linked.Tree D σ) : Sparse.Tree D σ := ⟨t0.id2Path, t0.update, t0.fanOut, none⟩

theorem emptyTree_related (t0 : Linked.Tree D σ) (h0 : t0.root = none) : Related t0 (emptyTree t0) :=
  ⟨rfl, rfl, rfl, by simp [h0, emptyTree], fun r v hr => by simp [h0] at hr⟩

/-- C78: after any sequence of `Put`s on an empty tree the vertices reached from the root form a tree: no vertex is
reached by two paths, and the parent of each is the vertex above it. -/
theorem C78_vertices_form_a_tree (t0 t : Linked.Tree D σ) (h0 : t0.root = none) (hist : List (Str × Option D)) (s s' : σ)
    (h : t0.puts hist s = some (t, s')) : t.root = none ∨ ∃ r v S, t.root = some r ∧ IsTree t.heap none r v S := by
  obtain ⟨h1, h2⟩ := puts_linked (emptyTree_related t0 h0) hist s
  cases hu : (emptyTree t0).puts hist s with
  | none => rw [h1 hu] at h; simp at h
  | some us =>
    obtain ⟨u, s1⟩ := us
    obtain ⟨t', e1, e2⟩ := h2 u s1 hu
    rw [e1, Option.some.injEq, Prod.mk.injEq] at h
    obtain ⟨rfl, rfl⟩ := h
    cases hr : t'.root with
    | none => exact Or.inl rfl
    | some r =>
      right
      cases hv : u.root with
      | none => rw [e2.none_iff.2 hv] at hr; simp at hr
      | some v =>
        obtain ⟨S, h3, -⟩ := e2.tree r v hr hv
        exact ⟨r, v, S, rfl, h3⟩

/-- C78: a sequence of `Put`s on the linked vertices panics iff it does in the inductive model, and has the same
effects on what the callback reads and writes. -/
theorem C78_same_effects (t0 : Linked.Tree D σ) (h0 : t0.root = none) (hist : List (Str × Option D)) (s : σ) :
    (t0.puts hist s).map Prod.snd = ((emptyTree t0).puts hist s).map Prod.snd := by
  obtain ⟨h1, h2⟩ := puts_linked (emptyTree_related t0 h0) hist s
  cases hu : (emptyTree t0).puts hist s with
  | none => rw [h1 hu]; rfl
  | some us =>
    obtain ⟨t', e1, -⟩ := h2 us.1 us.2 hu
    rw [e1]; rfl

/-- C78: afterwards `Get` answers as in the inductive model: it returns for the same identifiers, with the same data, and
pointers to vertices that hold the same. -/
theorem C78_same_answers (t0 t : Linked.Tree D σ) (h0 : t0.root = none) (hist : List (Str × Option D)) (s s' : σ)
    (h : t0.puts hist s = some (t, s')) (id : Str) : ∃ u, (emptyTree t0).puts hist s = some (u, s') ∧
      (u.get id = none → t.get id = none) ∧ (u.get id = some none → t.get id = some none) ∧
      ∀ d vs, u.get id = some (some (d, vs)) → ∃ ptrs, t.get id = some (some (d, ptrs)) ∧
        List.Forall₂ (fun x v => ∃ c, t.heap[x]? = some c ∧ c.key = v.key ∧ c.data = v.data) ptrs vs := by
  obtain ⟨h1, h2⟩ := puts_linked (emptyTree_related t0 h0) hist s
  cases hu : (emptyTree t0).puts hist s with
  | none => rw [h1 hu] at h; simp at h
  | some us =>
    obtain ⟨u, s1⟩ := us
    obtain ⟨t', e1, e2⟩ := h2 u s1 hu
    rw [e1, Option.some.injEq, Prod.mk.injEq] at h
    obtain ⟨rfl, rfl⟩ := h
    refine ⟨u, rfl, ?_⟩
    unfold Sparse.Tree.get Linked.Tree.get
    rw [e2.id2Path]
    cases hp : u.id2Path id with
    | none => exact ⟨fun _ => rfl, fun hs => by simp at hs, fun d vs hs => by simp at hs⟩
    | some path =>
      simp only [Option.bind_eq_bind, Option.bind_some]
      cases hv : u.root with
      | none =>
        rw [e2.none_iff.2 hv]
        exact ⟨fun hs => by simp at hs, fun _ => rfl, fun d vs hs => by simp at hs⟩
      | some v =>
        cases hr : t'.root with
        | none => rw [e2.none_iff.1 hr] at hv; simp at hv
        | some r =>
          obtain ⟨S, h3, -⟩ := e2.tree r v hr hv
          obtain ⟨w1, w2⟩ := walk_linked path h3
          simp only [Option.pure_def, Option.some.injEq]
          exact ⟨fun hs => by simp at hs, w1, w2⟩

/-- C34 for the linked vertices: the tree is a map from paths. -/
theorem C78_get_after_puts (t0 t : Linked.Tree D σ) (h0 : t0.root = none) (hist : List (Str × Option D)) (s s' : σ)
    (h : t0.puts hist s = some (t, s')) (id : Str) (q : List ℕ) (hq : t0.id2Path id = some q)
    (hpre : ∀ e ∈ hist, ∀ p, t0.id2Path e.1 = some p → q <+: p → q = p) :
    (∀ d, lastPut (hist.map fun e => (t0.id2Path e.1, e.2)) (some q) = some d →
      ∃ ptrs, t.get id = some (some (d, ptrs)) ∧ ptrs.length = q.length) ∧
    (lastPut (hist.map fun e => (t0.id2Path e.1, e.2)) (some q) = none → t.get id = some none) := by
  obtain ⟨u, hu, -, a2, a3⟩ := C78_same_answers t0 t h0 hist s s' h id
  obtain ⟨b1, b2⟩ := C34_get_after_puts (emptyTree t0) u rfl hist s s' hu id q hq hpre
  constructor
  · intro d hd
    obtain ⟨vs, e1, e2⟩ := b1 d hd
    obtain ⟨ptrs, f1, f2⟩ := a3 d vs e1
    exact ⟨ptrs, f1, by rw [f2.length_eq, e2]⟩
  · intro hn
    exact a2 (b2 hn)

/-! ## The hypotheses can be met -/

/-- The tree of C34's example, linked. -/
def exampleLinked : Linked.Tree ℕ Unit := ⟨exampleTree.id2Path, exampleTree.update, exampleTree.fanOut, none, []⟩

example : ∃ t r c, exampleLinked.puts [(['a'], some 5), (['c'], some 7), (['a'], some 6), (['b'], some 1)] () = some (t, ()) ∧
    t.root = some r ∧ t.heap[r]? = some c ∧ c.data = some 14 ∧ t.get ['a'] = some (some (some 6, [0, 1])) :=
  ⟨_, _, _, rfl, rfl, rfl, rfl, rfl⟩

end PoL.Props
