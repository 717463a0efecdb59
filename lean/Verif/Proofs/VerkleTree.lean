import Verif.Proofs.VerkleUpdate

/-! The invariant of the Verkle tree and its database. -/

set_option linter.unusedSectionVars false

namespace PoL.Verkle
open PoL.PP Sparse Spec

variable {G1 G2 GT : Type} [AddCommGroup G1] [Module Zr G1] [AddCommGroup G2] [Module Zr G2]
  [AddCommGroup GT] [Module Zr GT] [DecidableEq G1] [DecidableEq GT]

/-- The sum of the amounts at the leaves `h` levels below a vertex. -/
def total (F : ℕ) : ℕ → Sparse.Vertex Data → ℤ
  | 0, v => match v.data with
    | some (.amount n) => n
    | _ => 0
  | h + 1, v => ∑ i ∈ Finset.range F, ((descGet v.desc i).map (total F h)).getD 0

/-- The values of the children. -/
def childVals (F h : ℕ) (desc : List (ℕ × Sparse.Vertex Data)) : ℕ → Option Zr :=
  fun i => (descGet desc i).map fun u => intToZr (total F h u)

/-- The digests of the stored children. -/
def childDigs (E : Curve G1 G2 GT) (db : Db) (pre : List ℕ) (desc : List (ℕ × Sparse.Vertex Data)) : ℕ → Option Zr :=
  fun i => (descGet desc i).map fun _ => ((load E db (keyOf (pre ++ [i]))).map (dig E)).getD 0

/-- The invariant for a vertex `h` levels above the leaves: `P` tells for which vertices over the leaves the
commitment is known to be the right one. -/
def Good (E : Curve G1 G2 GT) (α : Zr) (F : ℕ) (P : List ℕ → Prop) :
    ℕ → List ℕ → Sparse.Vertex Data → Db → Prop
  | 0, _, v, _ => ∃ n, v.data = some (.amount n)
  | h + 1, pre, v, db =>
    v.key = keyOf pre ∧ v.data = some (.key (keyOf pre)) ∧
    (∀ i u, descGet v.desc i = some u → i < F ∧ Good E α F P h (pre ++ [i]) u db) ∧
    (h = 0 → ∃ bf V, load E db (keyOf pre) = some (leafVertex F bf (childVals F h v.desc) V) ∧
      (P pre → V = com E α (valVec F (childVals F h v.desc) bf))) ∧
    (h ≠ 0 → ∃ bf, load E db (keyOf pre)
      = some (innerVertex E α F bf (childVals F h v.desc) (childDigs E db pre v.desc)))

theorem sum_childVals (F h : ℕ) (v : Sparse.Vertex Data) :
    ∑ i ∈ Finset.range F, (childVals F h v.desc i).getD 0 = intToZr (total F (h + 1) v) := by
  simp only [total, intToZr, Int.cast_sum, childVals]
  refine Finset.sum_congr rfl fun i _ => ?_
  cases descGet v.desc i <;> simp

/-- A good vertex that is not a leaf is stored, with the sum of the amounts below it. -/
theorem Good.stored {E : Curve G1 G2 GT} {α : Zr} {F : ℕ} {P : List ℕ → Prop} {h : ℕ} {pre : List ℕ}
    {v : Sparse.Vertex Data} {db : Db} (hg : Good E α F P (h + 1) pre v db) :
    ∃ x, load E db (keyOf pre) = some x ∧ x.sum = intToZr (total F (h + 1) v) ∧
      x.values = mapBelow F (childVals F h v.desc) := by
  obtain ⟨-, -, -, h4, h5⟩ := hg
  by_cases hh : h = 0
  · obtain ⟨bf, V, hl, -⟩ := h4 hh
    exact ⟨_, hl, sum_childVals F h v, rfl⟩
  · obtain ⟨bf, hl⟩ := h5 hh
    exact ⟨_, hl, sum_childVals F h v, rfl⟩

/-- The invariant depends on the database only at the keys below the vertex. -/
theorem Good.frame {E : Curve G1 G2 GT} {α : Zr} {F : ℕ} {P P' : List ℕ → Prop} {h : ℕ} {pre : List ℕ}
    {v : Sparse.Vertex Data} {db db' : Db} (hg : Good E α F P h pre v db)
    (hdb : ∀ r, db' (keyOf (pre ++ r)) = db (keyOf (pre ++ r)))
    (hP : ∀ r, P' (pre ++ r) → P (pre ++ r)) : Good E α F P' h pre v db' := by
  induction h generalizing pre v with
  | zero => exact hg
  | succ h ih =>
    obtain ⟨h1, h2, h3, h4, h5⟩ := hg
    have hd : ∀ r, load E db' (keyOf (pre ++ r)) = load E db (keyOf (pre ++ r)) :=
      fun r => load_congr E (hdb r)
    have hd0 := hd []
    rw [List.append_nil] at hd0
    refine ⟨h1, h2, fun i u hu => ⟨(h3 i u hu).1, ih (h3 i u hu).2 ?_ ?_⟩, fun hh => ?_, fun hh => ?_⟩
    · intro r; rw [List.append_assoc]; exact hdb _
    · intro r hr; rw [List.append_assoc] at hr ⊢; exact hP _ hr
    · obtain ⟨bf, V, h6, h7⟩ := h4 hh
      refine ⟨bf, V, by rw [hd0, h6], fun hp => h7 ?_⟩
      have := hP []
      rw [List.append_nil] at this
      exact this hp
    · obtain ⟨bf, h6⟩ := h5 hh
      refine ⟨bf, ?_⟩
      rw [hd0, h6]
      unfold childDigs
      simp only [hd]

/-- The vertex below. -/
theorem Good.find {E : Curve G1 G2 GT} {α : Zr} {F : ℕ} {P : List ℕ → Prop} {h : ℕ} {pre : List ℕ}
    {v : Sparse.Vertex Data} {db : Db} (hg : Good E α F P h pre v db) (q : List ℕ) (hq : q.length ≤ h)
    (u : Sparse.Vertex Data) (hu : Sparse.find q v = some u) : Good E α F P (h - q.length) (pre ++ q) u db := by
  induction q generalizing h pre v with
  | nil =>
    rw [find_nil, Option.some.injEq] at hu
    subst hu
    simpa using hg
  | cons p t ih =>
    cases h with
    | zero => simp at hq
    | succ h =>
      rw [find_cons] at hu
      obtain ⟨w, hw, hu⟩ := Option.bind_eq_some_iff.1 hu
      have := ih (hg.2.2.1 p w hw).2 (by simpa using hq) hu
      simpa using this

/-- A vertex just created by `Put`. -/
def Fresh (pre : List ℕ) (v : Sparse.Vertex Data) : Prop := v = .mk (keyOf pre) none []

theorem childVals_set (F h : ℕ) (desc : List (ℕ × Sparse.Vertex Data)) (p : ℕ) (u : Sparse.Vertex Data) :
    childVals F h (descSet desc p u) = Function.update (childVals F h desc) p (some (intToZr (total F h u))) := by
  funext i
  unfold childVals
  rw [descGet_descSet]
  by_cases hi : p = i
  · subst hi; simp
  · rw [if_neg hi, Function.update_of_ne (Ne.symm hi)]

/-- The main step: a `Put` below a fresh or good vertex returns, leaves it good, and changes the database
only at the keys below it. -/
theorem putAt_good {E : Curve G1 G2 GT} (hE : E.Lawful) {env : Env} (henv : env.Lawful) (α : Zr) (F : ℕ)
    (hF : F + 2 ≤ 65536) (P P' : List ℕ → Prop) (n : ℤ) (path : List ℕ) (hpath : ∀ x ∈ path, x < F)
    (pre : List ℕ) (v : Sparse.Vertex Data) (s : State)
    (hv : Fresh pre v ∨ Good E α F P path.length pre v s.db)
    (hP : path ≠ [] → ∀ r, P' (pre ++ r) → (r ≠ path.dropLast ∧ P (pre ++ r)) ∨
      (r = path.dropLast ∧ ∀ u, Sparse.find r v = some u → u.data = none)) :
    ∃ v' s', putAt F (updateInnerVertex E (newPublicParams E α (F + 2)) env) (some (.amount n)) path
        (keyOf pre) v s = some (v', s') ∧
      Good E α F P' path.length pre v' s'.db ∧
      (∀ k, (∀ r, k ≠ keyOf (pre ++ r)) → s'.db k = s.db k) := by
  induction path generalizing pre v s with
  | nil => exact ⟨_, _, rfl, ⟨n, rfl⟩, fun _ _ => rfl⟩
  | cons p rest ih =>
    have hp : p < F := hpath p (by simp)
    have hP := hP (by simp)
    -- the vertex's key and its children
    have hkey : v.key = keyOf pre := by
      rcases hv with hv | hv
      · rw [hv]; rfl
      · exact hv.1
    have hch : ∀ i u, descGet v.desc i = some u → i < F ∧ Good E α F P rest.length (pre ++ [i]) u s.db := by
      rcases hv with hv | hv
      · intro i u hu; rw [hv] at hu; simp [Sparse.Vertex.desc, descGet] at hu
      · exact hv.2.2.1
    -- the recursive call
    obtain ⟨child', s1, hrec, hgood, hframe⟩ := ih (fun x hx => hpath x (by simp [hx])) (pre ++ [p])
      ((descGet v.desc p).getD (.mk (childKey (keyOf pre) p) none [])) s (by
        cases hd : descGet v.desc p with
        | none => left; rw [Option.getD_none, childKey_keyOf]; rfl
        | some u => right; rw [Option.getD_some]; exact (hch p u hd).2)
      (by
        intro hrest r hr
        rw [List.append_assoc, List.singleton_append] at hr ⊢
        rcases hP _ hr with ⟨h1, h2⟩ | ⟨h1, h2⟩
        · left
          refine ⟨fun hc => h1 ?_, h2⟩
          rw [hc, List.dropLast_cons_of_ne_nil hrest]
        · right
          rw [List.dropLast_cons_of_ne_nil hrest, List.cons.injEq] at h1
          refine ⟨h1.2, fun u hu => ?_⟩
          by_cases hr0 : r = []
          · subst hr0
            rw [find_nil, Option.some.injEq] at hu
            cases hd : descGet v.desc p with
            | none => rw [hd] at hu; rw [← hu]; rfl
            | some w =>
              rw [hd, Option.getD_some] at hu
              refine h2 u ?_
              rw [find_cons, hd, ← hu]; rfl
          · rw [find_getD _ _ _ _ hr0] at hu
            exact h2 u hu)
    rw [← childKey_keyOf] at hrec
    -- the children after the call
    set desc' := descSet v.desc p child' with hdesc'
    have hsib : ∀ i, i ≠ p → ∀ r, s1.db (keyOf (pre ++ [i] ++ r)) = s.db (keyOf (pre ++ [i] ++ r)) := by
      intro i hi r
      apply hframe
      intro r' hc
      have := keyOf_injective hc
      rw [List.append_assoc, List.append_assoc, List.append_cancel_left_eq] at this
      simp at this
      exact hi this.1
    have hself : s1.db (keyOf pre) = s.db (keyOf pre) := by
      apply hframe
      intro r' hc
      have := keyOf_injective hc
      have := congrArg List.length this
      simp at this
    have hch' : ∀ i u, descGet desc' i = some u → i < F ∧ Good E α F P' rest.length (pre ++ [i]) u s1.db := by
      intro i u hu
      rw [hdesc', descGet_descSet] at hu
      by_cases hi : p = i
      · rw [if_pos hi, Option.some.injEq] at hu
        subst hi; subst hu
        exact ⟨hp, hgood⟩
      · rw [if_neg hi] at hu
        refine ⟨(hch i u hu).1, (hch i u hu).2.frame (hsib i (Ne.symm hi)) ?_⟩
        intro r hr
        rw [List.append_assoc] at hr ⊢
        rcases hP _ hr with h | ⟨h1, h2⟩
        · exact h.2
        · exfalso
          by_cases hrest : rest = []
          · subst hrest; simp at h1
          · rw [List.dropLast_cons_of_ne_nil hrest] at h1
            simp at h1
            exact hi h1.1.symm
    have hraw := rawData_eq desc' F (fun i u hu => (hch' i u hu).1)
    -- it is enough to know what the callback stores
    have fin : ∀ x : Vertex G1,
        updateInnerVertex E (newPublicParams E α (F + 2)) env (keyOf pre) v.data
          ((List.range F).map fun i => (descGet desc' i).bind Sparse.Vertex.data) rest.isEmpty p s1
          = some (some (.key (keyOf pre)), store E env (keyOf pre) x s1) →
        (rest = [] → ∃ bf V, x = leafVertex F bf (childVals F 0 desc') V ∧
          (P' pre → V = com E α (valVec F (childVals F 0 desc') bf))) →
        (rest ≠ [] → ∃ bf, x = innerVertex E α F bf (childVals F rest.length desc') (childDigs E s1.db pre desc')) →
        ∃ v' s', putAt F (updateInnerVertex E (newPublicParams E α (F + 2)) env) (some (.amount n)) (p :: rest)
            (keyOf pre) v s = some (v', s') ∧
          Good E α F P' (p :: rest).length pre v' s'.db ∧
          (∀ k, (∀ r, k ≠ keyOf (pre ++ r)) → s'.db k = s.db k) := by
      intro x hupd hx0 hx1
      have hst : ∀ i r, (store E env (keyOf pre) x s1).db (keyOf (pre ++ [i] ++ r)) = s1.db (keyOf (pre ++ [i] ++ r)) := by
        intro i r
        apply store_db
        intro hc
        have := congrArg List.length (keyOf_injective hc)
        simp at this
      refine ⟨.mk v.key (some (.key (keyOf pre))) desc', store E env (keyOf pre) x s1, ?_, ?_, ?_⟩
      · rw [putAt]
        refine obind_step hrec ?_
        dsimp only
        refine obind_step hraw ?_
        rw [hkey]
        refine obind_step hupd ?_
        rfl
      · refine ⟨hkey, rfl, fun i u hu => ⟨(hch' i u hu).1, (hch' i u hu).2.frame (hst i) (fun _ h => h)⟩,
          fun h0 => ?_, fun h0 => ?_⟩
        · have h0 : rest = [] := List.length_eq_zero_iff.1 h0
          obtain ⟨bf, V, hx, hV⟩ := hx0 h0
          subst h0
          exact ⟨bf, V, by rw [load_store_self hE henv, hx]; rfl, hV⟩
        · have h0 : rest ≠ [] := fun hc => h0 (by rw [hc]; rfl)
          obtain ⟨bf, hx⟩ := hx1 h0
          refine ⟨bf, ?_⟩
          rw [load_store_self hE henv]
          have e : childDigs E (store E env (keyOf pre) x s1).db pre desc' = childDigs E s1.db pre desc' := by
            unfold childDigs
            funext i
            have := load_congr E (hst i [])
            rw [List.append_nil] at this
            rw [this]
          rw [Sparse.Vertex.desc_mk, e]
          exact congrArg some hx
      · intro k hk
        rw [store_db _ _ _ _ _ _ (by have := hk []; rwa [List.append_nil] at this)]
        apply hframe
        intro r
        rw [List.append_assoc]
        exact hk _
    by_cases hrest : rest = []
    · -- the layer over the leaves
      subst hrest
      have ham : ∀ j, j < F → (descGet desc' j).bind Sparse.Vertex.data
          = ((descGet desc' j).map (total F 0)).map Data.amount := by
        intro j _
        cases hd : descGet desc' j with
        | none => rfl
        | some u =>
          obtain ⟨b, hb⟩ := (hch' j u hd).2
          simp [total, hb]
      have hcv : (fun i => ((descGet desc' i).map (total F 0)).map intToZr) = childVals F 0 desc' := by
        funext i
        simp [childVals, Option.map_map, Function.comp_def]
      rcases hv with hv | hv
      · have hd0 : v.data = none := by rw [hv]; rfl
        have := updateLeaf_new E α F (by omega) env (keyOf pre) (fun i => (descGet desc' i).bind Sparse.Vertex.data)
          (fun i => (descGet desc' i).map (total F 0)) p s1 ham
        rw [hcv] at this
        refine fin _ (by rw [hd0]; exact this) ?_ ?_
        · exact fun _ => ⟨_, _, rfl, fun _ => rfl⟩
        · exact fun h => absurd rfl h
      · obtain ⟨-, hd0, -, h4, -⟩ := hv
        obtain ⟨bf, V, hl, -⟩ := h4 rfl
        have hl1 : load E s1.db (keyOf pre) = some (leafVertex F bf (childVals F 0 v.desc) V) := by
          rw [load_congr E hself, hl]
        obtain ⟨b, hb⟩ := (hch' p child' (by rw [hdesc', descGet_descSet, if_pos rfl])).2
        have hfp : (fun i => (descGet desc' i).bind Sparse.Vertex.data) p = some (.amount b) := by
          simp only [hdesc', descGet_descSet, if_true, Option.bind_some, hb]
        have := updateLeaf_old E α F hF env (keyOf pre) (.key (keyOf pre))
          (fun i => (descGet desc' i).bind Sparse.Vertex.data) p hp s1 bf _ V hl1 b hfp
        dsimp only at this
        have htot : total F 0 child' = b := by simp [total, hb]
        have hcv' : Function.update (childVals F 0 v.desc) p (some (intToZr b)) = childVals F 0 desc' := by
          rw [hdesc', childVals_set, htot]
        rw [hcv'] at this
        refine fin _ (by rw [hd0]; exact this) ?_ ?_
        rotate_left
        · exact fun h => absurd rfl h
        · refine fun _ => ⟨_, _, rfl, fun hpp => ?_⟩
          exfalso
          have h6 := hP []
          rw [List.append_nil] at h6
          rcases h6 hpp with ⟨h7, -⟩ | ⟨-, h7⟩
          · exact h7 rfl
          · have := h7 v rfl
            rw [hd0] at this
            simp at this
    · -- the other layers
      have hre : rest.isEmpty = false := by
        cases rest with
        | nil => exact absurd rfl hrest
        | cons => rfl
      obtain ⟨h, hh⟩ : ∃ h, rest.length = h + 1 := ⟨rest.length - 1, by
        have := List.length_pos_iff.2 hrest; omega⟩
      -- the stored children
      have hstored : ∀ i u, descGet desc' i = some u → u.data = some (.key (keyOf (pre ++ [i]))) ∧
          ∃ x, load E s1.db (keyOf (pre ++ [i])) = some x ∧ x.sum = intToZr (total F rest.length u) := by
        intro i u hu
        have hg := (hch' i u hu).2
        rw [hh] at hg ⊢
        obtain ⟨x, h1, h2, -⟩ := hg.stored
        exact ⟨hg.2.1, x, h1, h2⟩
      rcases hv with hv | hv
      · have hd0 : v.data = none := by rw [hv]; rfl
        have := updateInner_new hE α F (by omega) env (keyOf pre)
          (fun i => (descGet desc' i).bind Sparse.Vertex.data)
          (fun i => (descGet desc' i).bind fun _ => load E s1.db (keyOf (pre ++ [i]))) p s1 (by
            intro j _
            cases hd : descGet desc' j with
            | none => left; exact ⟨rfl, rfl⟩
            | some u =>
              right
              obtain ⟨h1, x, h2, -⟩ := hstored j u hd
              exact ⟨_, x, h1, h2, h2⟩)
        refine fin _ (by rw [hre, hd0]; exact this) ?_ ?_
        · exact fun h => absurd h hrest
        · refine fun _ => ⟨env.rand s1.tick, ?_⟩
          congr 1
          · funext i
            cases hd : descGet desc' i with
            | none => simp [childVals, hd]
            | some u =>
              obtain ⟨h1, x, h2, h3⟩ := hstored i u hd
              simp [childVals, hd, h2, h3]
          · funext i
            cases hd : descGet desc' i with
            | none => simp [childDigs, hd]
            | some u =>
              obtain ⟨h1, x, h2, h3⟩ := hstored i u hd
              simp [childDigs, hd, h2]
      · obtain ⟨-, hd0, -, -, h5⟩ := hv
        obtain ⟨bf, hl⟩ := h5 (by simpa using hrest)
        have hl1 : load E s1.db (keyOf pre)
            = some (innerVertex E α F bf (childVals F rest.length v.desc) (childDigs E s.db pre v.desc)) := by
          rw [load_congr E hself]; exact hl
        obtain ⟨h1, y, h2, h3⟩ := hstored p child' (by rw [hdesc', descGet_descSet, if_pos rfl])
        have := updateInner_old hE α F hF env (keyOf pre) (.key (keyOf pre))
          (fun i => (descGet desc' i).bind Sparse.Vertex.data) p hp s1 bf _ _
          (by intro i; simp [childVals, childDigs]) hl1 y (by
            have : (descGet desc' p).bind Sparse.Vertex.data = some (.key (keyOf (pre ++ [p]))) := by
              rw [hdesc', descGet_descSet, if_pos rfl, Option.bind_some, h1]
            simp only [this]
            exact h2)
        refine fin _ (by rw [hre, hd0]; exact this) ?_ ?_
        · exact fun h => absurd h hrest
        · refine fun _ => ⟨bf, ?_⟩
          congr 1
          · rw [hdesc', childVals_set, h3]
          · funext i
            by_cases hi : i = p
            · subst hi
              rw [Function.update_self]
              unfold childDigs
              rw [hdesc', descGet_descSet, if_pos rfl, h2]
              rfl
            · rw [Function.update_of_ne hi]
              unfold childDigs
              rw [hdesc', descGet_descSet, if_neg (Ne.symm hi)]
              have := load_congr E (hsib i hi [])
              rw [List.append_nil] at this
              rw [this]

end PoL.Verkle
