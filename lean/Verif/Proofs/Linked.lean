import Verif.Spec.Linked
import Verif.Proofs.Sparse
import Mathlib.Data.Set.Lattice

/-! # The linked vertices follow the inductive tree -/

namespace PoL.Spec
open Sparse Linked

variable {D σ : Type}

theorem IsTree.mono {h : Heap D} {par : Option ℕ} {ptr : ℕ} {v : Sparse.Vertex D} {S S' : Set ℕ}
    (ht : IsTree h par ptr v S) (hS : S ⊆ S') : IsTree h par ptr v S' := by
  cases ht with
  | mk cell mem sub out below => exact .mk cell (hS mem) (sub.trans hS) out below

theorem AreTrees.mono {h : Heap D} {par : ℕ} {pds : List (ℕ × ℕ)} {ds : List (ℕ × Sparse.Vertex D)} {S S' : Set ℕ}
    (ht : AreTrees h par pds ds S) (hS : S ⊆ S') : AreTrees h par pds ds S' := by
  cases ht with
  | nil => exact .nil
  | cons first others sub sub' apart => exact .cons first others (sub.trans hS) (sub'.trans hS) apart

mutual
/-- Only the vertices of the tree matter. -/
theorem IsTree.frame {h h' : Heap D} {par : Option ℕ} {ptr : ℕ} {v : Sparse.Vertex D} {S : Set ℕ}
    (ht : IsTree h par ptr v S) (hh : ∀ x ∈ S, h'[x]? = h[x]?) : IsTree h' par ptr v S := by
  cases ht with
  | mk cell mem sub out below =>
    exact .mk ((hh _ mem).trans cell) mem sub out (AreTrees.frame below fun x hx => hh x (sub hx))
theorem AreTrees.frame {h h' : Heap D} {par : ℕ} {pds : List (ℕ × ℕ)} {ds : List (ℕ × Sparse.Vertex D)} {S : Set ℕ}
    (ht : AreTrees h par pds ds S) (hh : ∀ x ∈ S, h'[x]? = h[x]?) : AreTrees h' par pds ds S := by
  cases ht with
  | nil => exact .nil
  | cons first others sub sub' apart =>
    exact .cons (IsTree.frame first fun x hx => hh x (sub hx)) (AreTrees.frame others fun x hx => hh x (sub' hx)) sub sub' apart
end

/-- A descendant that is there, and what happens when its part of the memory is changed. -/
theorem AreTrees.child {h : Heap D} {par : ℕ} {p : ℕ} {v : Sparse.Vertex D} : ∀ {pds : List (ℕ × ℕ)} {ds : List (ℕ × Sparse.Vertex D)} {S : Set ℕ},
    AreTrees h par pds ds S → descGet ds p = some v → ∃ u T, descGet pds p = some u ∧ T ⊆ S ∧ IsTree h (some par) u v T ∧
      ∀ (h' : Heap D) (v' : Sparse.Vertex D) (N : Set ℕ), (∀ x ∈ S, x ∉ T → h'[x]? = h[x]?) → Disjoint N S →
        IsTree h' (some par) u v' (T ∪ N) → AreTrees h' par pds (descSet ds p v') (S ∪ N) := by
  intro pds ds
  induction ds generalizing pds with
  | nil => intro S _ hg; simp [descGet] at hg
  | cons a ds ih =>
    intro S ht hg
    cases ht with
    | @cons _ i u w pds _ _ T T' first others sub sub' apart =>
      rw [descGet] at hg
      by_cases hi : i = p
      · rw [if_pos hi, Option.some.injEq] at hg
        subst hg
        refine ⟨u, T, by rw [descGet, if_pos hi], sub, first, fun h' v' N hfr hN hnew => ?_⟩
        rw [descSet, if_pos hi, ← hi]
        refine .cons hnew (others.frame fun x hx => hfr x (sub' hx) fun hc => Set.disjoint_left.1 apart hc hx)
          (Set.union_subset_union_left N sub) (sub'.trans Set.subset_union_left) ?_
        rw [Set.disjoint_union_left]
        exact ⟨apart, hN.mono_right sub'⟩
      · rw [if_neg hi] at hg
        obtain ⟨u', T1, e1, e2, e3, e4⟩ := ih others hg
        refine ⟨u', T1, by rw [descGet, if_neg hi]; exact e1, e2.trans sub', e3, fun h' v' N hfr hN hnew => ?_⟩
        rw [descSet, if_neg hi]
        refine .cons (first.frame fun x hx => hfr x (sub hx) fun hc => Set.disjoint_left.1 apart hx (e2 hc))
          (e4 h' v' N (fun x hx hxT => hfr x (sub' hx) hxT) (hN.mono_right sub') hnew)
          (sub.trans Set.subset_union_left) (Set.union_subset_union_left N sub') ?_
        rw [Set.disjoint_union_right]
        exact ⟨apart, (hN.mono_right sub).symm⟩

/-- A descendant that is not there, and what happens when it is added. -/
theorem AreTrees.noChild {h : Heap D} {par : ℕ} {p : ℕ} : ∀ {pds : List (ℕ × ℕ)} {ds : List (ℕ × Sparse.Vertex D)} {S : Set ℕ},
    AreTrees h par pds ds S → descGet ds p = none → descGet pds p = none ∧
      ∀ (h' : Heap D) (u : ℕ) (v' : Sparse.Vertex D) (N : Set ℕ), (∀ x ∈ S, h'[x]? = h[x]?) → Disjoint N S →
        IsTree h' (some par) u v' N → AreTrees h' par (descSet pds p u) (descSet ds p v') (S ∪ N) := by
  intro pds ds
  induction ds generalizing pds with
  | nil =>
    intro S ht _
    cases ht
    refine ⟨rfl, fun h' u v' N _ _ hnew => ?_⟩
    exact .cons hnew (.nil (S := ∅)) Set.subset_union_right (Set.empty_subset _) (Set.disjoint_empty _)
  | cons a ds ih =>
    intro S ht hg
    cases ht with
    | @cons _ i u w pds _ _ T T' first others sub sub' apart =>
      rw [descGet] at hg
      by_cases hi : i = p
      · rw [if_pos hi] at hg; simp at hg
      · rw [if_neg hi] at hg
        obtain ⟨e1, e2⟩ := ih others hg
        refine ⟨by rw [descGet, if_neg hi]; exact e1, fun h' u' v' N hfr hN hnew => ?_⟩
        rw [descSet, if_neg hi, descSet, if_neg hi]
        refine .cons (first.frame fun x hx => hfr x (sub hx))
          (e2 h' u' v' N (fun x hx => hfr x (sub' hx)) (hN.mono_right sub') hnew)
          (sub.trans Set.subset_union_left) (Set.union_subset_union_left N sub') ?_
        rw [Set.disjoint_union_right]
        exact ⟨apart, (hN.mono_right sub).symm⟩

theorem AreTrees.indices {h : Heap D} {par : ℕ} : ∀ {pds : List (ℕ × ℕ)} {ds : List (ℕ × Sparse.Vertex D)} {S : Set ℕ},
    AreTrees h par pds ds S → pds.map Prod.fst = ds.map Prod.fst := by
  intro pds ds
  induction ds generalizing pds with
  | nil => intro S ht; cases ht; rfl
  | cons a ds ih =>
    intro S ht
    cases ht with
    | cons first others sub sub' apart => simp [ih others]

theorem IsTree.cellData {h : Heap D} {par : Option ℕ} {ptr : ℕ} {v : Sparse.Vertex D} {S : Set ℕ}
    (ht : IsTree h par ptr v S) : ∃ c, h[ptr]? = some c ∧ c.key = v.key ∧ c.data = v.data ∧ c.parent = par := by
  cases ht with
  | mk cell mem sub out below => exact ⟨_, cell, rfl, rfl, rfl⟩

end PoL.Spec

namespace PoL.Linked
open Sparse Spec

variable {D σ : Type}

/-- The data of the descendants. -/
theorem rawData_linked {h : Heap D} {par : ℕ} {pds : List (ℕ × ℕ)} {ds : List (ℕ × Sparse.Vertex D)} {S : Set ℕ}
    (ht : AreTrees h par pds ds S) (size : ℕ) : Linked.rawData h pds size = Sparse.rawData ds size := by
  unfold Linked.rawData Sparse.rawData
  have hany : pds.any (fun e => decide (size ≤ e.1)) = ds.any (fun e => decide (size ≤ e.1)) := by
    have := congrArg (fun l => l.any fun i => decide (size ≤ i)) (AreTrees.indices ht)
    simpa [List.any_map, Function.comp_def] using this
  rw [hany]
  split_ifs with hb
  · rfl
  · apply mapM_some
    intro i _
    cases hg : descGet ds i with
    | none => rw [(AreTrees.noChild ht hg).1]; rfl
    | some v =>
      obtain ⟨u, T, e1, -, e2, -⟩ := AreTrees.child ht hg
      obtain ⟨c, hc, -, hd, -⟩ := e2.cellData
      rw [e1]
      simp [hc, hd]

/-- One round of the loop upwards. -/
theorem ascend_step {F : ℕ} {upd : Update D σ} {h : Heap D} {ptr : ℕ} {k : Str} {d : Option D} {pds : List (ℕ × ℕ)}
    {par : Option ℕ} {ds : List (ℕ × Sparse.Vertex D)} {T : Set ℕ} (cell : h[ptr]? = some ⟨k, d, pds, par⟩)
    (below : AreTrees h ptr pds ds T) (p : ℕ) (leaves : Bool) (s : σ) (more : List ℕ) :
    ascend F upd (p :: more) (some ptr) leaves h s = (Sparse.rawData ds F).bind fun raw =>
      (upd k d raw leaves p s).bind fun r => ascend F upd more par false (h.set ptr ⟨k, r.1, pds, par⟩) r.2 := by
  rw [ascend]
  simp only [Option.bind_eq_bind]
  rw [cell, Option.bind_some]
  dsimp only
  rw [rawData_linked below]

theorem isTree_set {h : Heap D} {ptr : ℕ} {c : Cell D} {pds : List (ℕ × ℕ)} {par : Option ℕ}
    {ds : List (ℕ × Sparse.Vertex D)} {S T : Set ℕ} (cell : h[ptr]? = some c) (below : AreTrees h ptr pds ds T)
    (mem : ptr ∈ S) (sub : T ⊆ S) (out : ptr ∉ T) (k : Str) (d : Option D) :
    IsTree (h.set ptr ⟨k, d, pds, par⟩) par ptr (.mk k d ds) S := by
  have hlt : ptr < h.length := (List.getElem?_eq_some_iff.1 cell).1
  refine .mk (by rw [List.getElem?_set_self hlt]) mem sub out (below.frame fun x hx => ?_)
  exact List.getElem?_set_ne (by rintro rfl; exact out hx)

theorem put_linked {F : ℕ} {upd : Update D σ} {data : Option D} : ∀ (path : List ℕ) (ps : Str) (par : Option ℕ) (ptr : ℕ)
    (v : Sparse.Vertex D) (S : Set ℕ) (h : Heap D) (s : σ), IsTree h par ptr v S → (∀ x ∈ S, x < h.length) →
    ∃ leaf h1 c, descend path ps ptr h = some (leaf, h1) ∧ h1[leaf]? = some c ∧
      (putAt F upd data path ps v s = none →
        ∀ more, ascend F upd (path.reverse ++ more) c.parent true (h1.set leaf { c with data := data }) s = none) ∧
      ∀ v' s', putAt F upd data path ps v s = some (v', s') → ∃ h2,
        (∀ more, ascend F upd (path.reverse ++ more) c.parent true (h1.set leaf { c with data := data }) s
          = ascend F upd more par path.isEmpty h2 s') ∧
        h.length ≤ h2.length ∧ (∀ x < h.length, x ∉ S → h2[x]? = h[x]?) ∧
        IsTree h2 par ptr v' (S ∪ {x | h.length ≤ x ∧ x < h2.length}) := by
  intro path
  induction path with
  | nil =>
    intro ps par ptr v S h s ht hlt
    cases ht with
    | @mk _ _ k d pds ds _ T cell mem sub out below =>
      refine ⟨ptr, h, _, rfl, cell, fun hn => by simp [putAt] at hn, fun v' s' hp => ?_⟩
      obtain ⟨rfl, rfl⟩ := putAt_nil hp
      refine ⟨h.set ptr ⟨k, data, pds, par⟩, fun more => rfl, by simp, fun x _ hx => ?_, ?_⟩
      · exact List.getElem?_set_ne (by rintro rfl; exact hx mem)
      · exact isTree_set cell below (Or.inl mem) (sub.trans Set.subset_union_left) out k data
  | cons p rest ih =>
    intro ps par ptr v S h s ht hlt
    cases ht with
    | @mk _ _ k d pds ds _ T cell mem sub out below =>
      have hptr : ptr < h.length := (List.getElem?_eq_some_iff.1 cell).1
      have hput : putAt F upd data (p :: rest) ps (.mk k d ds) s
          = (putAt F upd data rest (childKey ps p) ((descGet ds p).getD (.mk (childKey ps p) none [])) s).bind fun cs =>
            (Sparse.rawData (descSet ds p cs.1) F).bind fun raw => (upd k d raw rest.isEmpty p cs.2).bind fun r =>
              some (.mk k r.1 (descSet ds p cs.1), r.2) := rfl
      -- the descent, and the state of the memory when the loop upwards comes back to `ptr`
      obtain ⟨leaf, h1, c, e1, e2, e3, e4⟩ : ∃ leaf h1 c, descend (p :: rest) ps ptr h = some (leaf, h1) ∧ h1[leaf]? = some c ∧
          (putAt F upd data rest (childKey ps p) ((descGet ds p).getD (.mk (childKey ps p) none [])) s = none →
            ∀ more, ascend F upd (rest.reverse ++ more) c.parent true (h1.set leaf { c with data := data }) s = none) ∧
          ∀ w s', putAt F upd data rest (childKey ps p) ((descGet ds p).getD (.mk (childKey ps p) none [])) s = some (w, s') →
            ∃ h2 pds', (∀ more, ascend F upd (rest.reverse ++ more) c.parent true (h1.set leaf { c with data := data }) s
              = ascend F upd more (some ptr) rest.isEmpty h2 s') ∧
            h.length ≤ h2.length ∧ (∀ x < h.length, x ∉ S → h2[x]? = h[x]?) ∧ h2[ptr]? = some ⟨k, d, pds', par⟩ ∧
            AreTrees h2 ptr pds' (descSet ds p w) (T ∪ {x | h.length ≤ x ∧ x < h2.length}) := by
        cases hg : descGet ds p with
        | some w =>
          obtain ⟨u, T1, c1, c2, c3, c4⟩ := below.child hg
          obtain ⟨leaf, h1, c, e1, e2, e3, e4⟩ := ih (childKey ps p) (some ptr) u w T1 h s c3 fun x hx => hlt x (sub (c2 hx))
          refine ⟨leaf, h1, c, ?_, e2, e3, ?_⟩
          · rw [descend]
            refine obind_step cell ?_
            dsimp only
            rw [c1]
            exact e1
          · intro w' s' hw
            obtain ⟨h2, f1, f2, f3, f4⟩ := e4 w' s' hw
            refine ⟨h2, pds, f1, f2, fun x hx hxS => f3 x hx fun hc => hxS (sub (c2 hc)), ?_, ?_⟩
            · rw [f3 ptr hptr fun hc => out (c2 hc)]
              exact cell
            · refine c4 h2 w' _ (fun x hx hxT => f3 x (hlt x (sub hx)) hxT) ?_ f4
              rw [Set.disjoint_left]
              rintro x ⟨hx, -⟩ hxT
              have := hlt x (sub hxT)
              omega
        | none =>
          obtain ⟨c1, c2⟩ := below.noChild hg
          obtain ⟨h', hh'⟩ : ∃ h' : Heap D, h' = List.set (h ++ [(⟨childKey ps p, none, [], some ptr⟩ : Cell D)]) ptr
            ⟨k, d, descSet pds p h.length, par⟩ := ⟨_, rfl⟩
          have hlen : h'.length = h.length + 1 := by rw [hh']; simp
          have hold : ∀ x < h.length, x ≠ ptr → h'[x]? = h[x]? := by
            intro x hx hne
            rw [hh', List.getElem?_set_ne (Ne.symm hne), List.getElem?_append_left hx]
          have hnew : h'[h.length]? = some ⟨childKey ps p, none, [], some ptr⟩ := by
            rw [hh', List.getElem?_set_ne (by omega), List.getElem?_append_right le_rfl]
            simp
          have hat : h'[ptr]? = some ⟨k, d, descSet pds p h.length, par⟩ := by
            rw [hh', List.getElem?_set_self (by simp; omega)]
          obtain ⟨leaf, h1, c, e1, e2, e3, e4⟩ := ih (childKey ps p) (some ptr) h.length (.mk (childKey ps p) none [])
            {h.length} h' s (.mk hnew rfl (Set.empty_subset _) (by simp) .nil) (by simp [hlen])
          refine ⟨leaf, h1, c, ?_, e2, e3, ?_⟩
          · rw [descend]
            refine obind_step cell ?_
            dsimp only
            rw [c1]
            dsimp only
            rw [← hh']
            exact e1
          · intro w' s' hw
            obtain ⟨h2, f1, f2, f3, f4⟩ := e4 w' s' hw
            have hfr : ∀ x < h.length, x ≠ ptr → h2[x]? = h[x]? := fun x hx hne => by
              rw [f3 x (by omega) (by simp; omega), hold x hx hne]
            refine ⟨h2, descSet pds p h.length, f1, by omega, fun x hx hxS => hfr x hx (by rintro rfl; exact hxS mem), ?_, ?_⟩
            · rw [f3 ptr (by omega) (by simp; omega), hat]
            · refine c2 h2 h.length w' _ (fun x hx => hfr x (hlt x (sub hx)) (by rintro rfl; exact out hx)) ?_ (f4.mono ?_)
              · rw [Set.disjoint_left]
                rintro x ⟨hx, -⟩ hxT
                have := hlt x (sub hxT)
                omega
              · rintro x (hx | ⟨hx, hx'⟩)
                · rw [Set.mem_singleton_iff] at hx
                  subst hx
                  exact ⟨le_rfl, by omega⟩
                · exact ⟨by omega, hx'⟩
      -- the last round
      refine ⟨leaf, h1, c, e1, e2, ?_, ?_⟩
      · intro hn more
        rw [hput] at hn
        rw [List.reverse_cons, List.append_assoc, List.singleton_append]
        cases hr : putAt F upd data rest (childKey ps p) ((descGet ds p).getD (.mk (childKey ps p) none [])) s with
        | none => exact e3 hr _
        | some ws =>
          obtain ⟨w, s1⟩ := ws
          obtain ⟨h2, pds', f1, f2, f3, f4, f5⟩ := e4 w s1 hr
          rw [f1, ascend_step f4 f5]
          rw [hr, Option.bind_some] at hn
          dsimp only at hn
          cases hraw : Sparse.rawData (descSet ds p w) F with
          | none => rfl
          | some raw =>
            rw [hraw, Option.bind_some] at hn
            rw [Option.bind_some]
            cases hu : upd k d raw rest.isEmpty p s1 with
            | none => rfl
            | some r => rw [hu] at hn; simp at hn
      · intro v' s' hp
        rw [hput] at hp
        obtain ⟨⟨w, s1⟩, hr, hp⟩ := obind_elim hp
        obtain ⟨raw, hraw, hp⟩ := obind_elim hp
        obtain ⟨r, hu, hp⟩ := obind_elim hp
        rw [Option.some.injEq, Prod.mk.injEq] at hp
        obtain ⟨rfl, rfl⟩ := hp
        obtain ⟨h2, pds', f1, f2, f3, f4, f5⟩ := e4 w s1 hr
        dsimp only at hraw hu
        refine ⟨h2.set ptr ⟨k, r.1, pds', par⟩, fun more => ?_, by simpa using f2, fun x hx hxS => ?_, ?_⟩
        · rw [List.reverse_cons, List.append_assoc, List.singleton_append, f1, ascend_step f4 f5, hraw, Option.bind_some, hu]
          rfl
        · rw [List.getElem?_set_ne (by rintro rfl; exact hxS mem)]
          exact f3 x hx hxS
        · rw [List.length_set]
          refine isTree_set f4 f5 (Or.inl mem) (Set.union_subset_union_left _ sub) ?_ k r.1
          rintro (hc | ⟨hc, -⟩)
          · exact out hc
          · omega

end PoL.Linked

namespace PoL.Linked
open Sparse Spec

variable {D σ : Type}

/-- The two models of a tree hold the same. -/
structure Related (t : Tree D σ) (u : Sparse.Tree D σ) : Prop where
  id2Path : t.id2Path = u.id2Path
  update : t.update = u.update
  fanOut : t.fanOut = u.fanOut
  none_iff : t.root = none ↔ u.root = none
  tree : ∀ r v, t.root = some r → u.root = some v → ∃ S, IsTree t.heap none r v S ∧ ∀ x ∈ S, x < t.heap.length

theorem Related.start {t : Tree D σ} {u : Sparse.Tree D σ} (h : Related t u) : ∃ r hp S, t.getRoot = (r, hp) ∧
    IsTree hp none r (u.root.getD (.mk [] none [])) S ∧ ∀ x ∈ S, x < hp.length := by
  unfold Tree.getRoot
  cases hr : t.root with
  | none =>
    have hu := h.none_iff.1 hr
    refine ⟨_, _, {t.heap.length}, rfl, ?_, by simp⟩
    rw [hu, Option.getD_none]
    exact .mk (by rw [List.getElem?_append_right le_rfl]; simp) rfl (Set.empty_subset _) (by simp) .nil
  | some r =>
    cases hu : u.root with
    | none => rw [h.none_iff.2 hu] at hr; simp at hr
    | some v =>
      obtain ⟨S, h1, h2⟩ := h.tree r v hr hu
      exact ⟨r, t.heap, S, rfl, h1, h2⟩

theorem put_none {t : Tree D σ} {u : Sparse.Tree D σ} (h : Related t u) (id : Str) (d : Option D) (s : σ)
    (hn : u.put id d s = none) : t.put id d s = none := by
  unfold Tree.put
  unfold Sparse.Tree.put at hn
  rw [h.id2Path]
  cases hp : u.id2Path id with
  | none => rfl
  | some path =>
    rw [hp] at hn
    obtain ⟨r, hpp, S, e1, e2, e3⟩ := h.start
    obtain ⟨leaf, h1, c, f1, f2, f3, -⟩ := put_linked (F := u.fanOut) (upd := u.update) (data := d) path [] none r _ S hpp s e2 e3
    simp only [Option.bind_eq_bind, Option.bind_some] at hn ⊢
    rw [e1]
    dsimp only
    rw [f1, Option.bind_some]
    dsimp only
    rw [f2, Option.bind_some, h.fanOut, h.update]
    have := f3 (by
      cases hq : putAt u.fanOut u.update d path [] (u.root.getD (.mk [] none [])) s with
      | none => rfl
      | some r => rw [hq] at hn; simp at hn) []
    rw [List.append_nil] at this
    rw [this]
    rfl

theorem put_some_linked {t : Tree D σ} {u u' : Sparse.Tree D σ} (h : Related t u) (id : Str) (d : Option D) (s s' : σ)
    (hs : u.put id d s = some (u', s')) : ∃ t', t.put id d s = some (t', s') ∧ Related t' u' := by
  obtain ⟨path, root', hp, hput, rfl⟩ := Sparse.put_some hs
  obtain ⟨r, hpp, S, e1, e2, e3⟩ := h.start
  obtain ⟨leaf, h1, c, f1, f2, -, f3⟩ := put_linked (F := u.fanOut) (upd := u.update) (data := d) path [] none r _ S hpp s e2 e3
  obtain ⟨h2, g1, g2, g3, g4⟩ := f3 root' s' hput
  have g1 := g1 []
  rw [List.append_nil] at g1
  refine ⟨{ t with root := some r, heap := h2 }, ?_, ?_⟩
  · unfold Tree.put
    rw [h.id2Path, hp]
    simp only [Option.bind_eq_bind, Option.bind_some]
    rw [e1]
    dsimp only
    rw [f1, Option.bind_some]
    dsimp only
    rw [f2, Option.bind_some, h.fanOut, h.update, g1]
    unfold ascend
    rfl
  · refine ⟨h.id2Path, h.update, h.fanOut, by simp, fun r' v hr hv => ?_⟩
    obtain rfl := Option.some.inj hr
    obtain rfl := Option.some.inj hv
    refine ⟨_, g4, ?_⟩
    rintro x (hx | ⟨-, hx⟩)
    · exact lt_of_lt_of_le (e3 x hx) g2
    · exact hx

theorem puts_linked {t : Tree D σ} {u : Sparse.Tree D σ} (h : Related t u) (hist : List (Str × Option D)) (s : σ) :
    (u.puts hist s = none → t.puts hist s = none) ∧
    ∀ u' s', u.puts hist s = some (u', s') → ∃ t', t.puts hist s = some (t', s') ∧ Related t' u' := by
  unfold Sparse.Tree.puts Tree.puts
  induction hist generalizing t u s with
  | nil =>
    refine ⟨fun hn => by simp at hn, fun u' s' hs => ?_⟩
    simp only [List.foldlM_nil, Option.pure_def, Option.some.injEq, Prod.mk.injEq] at hs
    obtain ⟨rfl, rfl⟩ := hs
    exact ⟨t, rfl, h⟩
  | cons e hist ih =>
    simp only [List.foldlM_cons, Option.bind_eq_bind]
    cases hu : u.put e.1 e.2 s with
    | none =>
      rw [put_none h _ _ _ hu]
      exact ⟨fun _ => rfl, fun u' s' hs => by simp at hs⟩
    | some us =>
      obtain ⟨u1, s1⟩ := us
      obtain ⟨t1, ht1, hrel⟩ := put_some_linked h _ _ _ _ hu
      rw [ht1, Option.bind_some, Option.bind_some]
      exact ih hrel s1

/-- `Get` on linked vertices. -/
theorem walk_linked {h : Heap D} : ∀ (path : List ℕ) {par : Option ℕ} {ptr : ℕ} {v : Sparse.Vertex D} {S : Set ℕ},
    IsTree h par ptr v S →
    (getAt path v = none → Tree.walk h path ptr = some none) ∧
    ∀ d vs, getAt path v = some (d, vs) → ∃ ptrs, Tree.walk h path ptr = some (some (d, ptrs)) ∧
      List.Forall₂ (fun x u => ∃ c, h[x]? = some c ∧ c.key = u.key ∧ c.data = u.data) ptrs vs := by
  intro path
  induction path with
  | nil =>
    intro par ptr v S ht
    obtain ⟨c, hc, hk, hd, -⟩ := ht.cellData
    refine ⟨fun hn => by simp [getAt] at hn, fun d vs hg => ?_⟩
    rw [getAt, Option.some.injEq, Prod.mk.injEq] at hg
    obtain ⟨rfl, rfl⟩ := hg
    exact ⟨[], by rw [Tree.walk]; exact obind_step hc (by rw [hd]; rfl), .nil⟩
  | cons p path ih =>
    intro par ptr v S ht
    obtain ⟨c0, hc0, hk0, hd0, -⟩ := ht.cellData
    cases ht with
    | @mk _ _ k d pds ds _ T cell mem sub out below =>
      have hw : Tree.walk h (p :: path) ptr = (match descGet pds p with
          | none => pure none
          | some u => (Tree.walk h path u).bind fun r => match r with
            | none => pure none
            | some (d, vs) => pure (some (d, ptr :: vs))) := by
        rw [Tree.walk]
        refine obind_step cell ?_
        rfl
      rw [hw, getAt, Vertex.desc_mk]
      cases hg : descGet ds p with
      | none =>
        rw [(below.noChild hg).1]
        exact ⟨fun _ => rfl, fun d vs hs => by simp at hs⟩
      | some w =>
        obtain ⟨u, T1, c1, c2, c3, -⟩ := below.child hg
        rw [c1]
        obtain ⟨i1, i2⟩ := ih c3
        dsimp only
        cases hgp : getAt path w with
        | none =>
          rw [i1 hgp]
          exact ⟨fun _ => rfl, fun d vs hs => by simp at hs⟩
        | some dvs =>
          obtain ⟨d1, vs1⟩ := dvs
          obtain ⟨ptrs, j1, j2⟩ := i2 d1 vs1 hgp
          refine ⟨fun hn => by simp at hn, fun d vs hs => ?_⟩
          simp only [Option.some.injEq, Prod.mk.injEq] at hs
          obtain ⟨rfl, rfl⟩ := hs
          exact ⟨ptr :: ptrs, by rw [j1]; rfl, .cons ⟨c0, hc0, hk0, hd0⟩ j2⟩

end PoL.Linked
