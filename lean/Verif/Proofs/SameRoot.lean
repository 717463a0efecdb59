import Verif.Proofs.Deviation
import Verif.Proofs.PolTree
import Verif.Props.Exact
import Verif.Spec.SameRoot

/-!
# What two runs with the same root have in common
-/

set_option linter.unusedSectionVars false

namespace PoL.Verkle
open Spec Props Polynomial

variable {G1 G2 GT : Type} [AddCommGroup G1] [Module Zr G1] [AddCommGroup G2] [Module Zr G2]
  [AddCommGroup GT] [Module Zr GT] [DecidableEq G1] [DecidableEq GT]

open scoped Classical in
/-- The amounts below the children that have been passed. -/
noncomputable def belowVals (h : List (List ℕ × ℤ)) (q : List ℕ) : ℕ → Option Zr := fun j =>
  if touched h (q ++ [j]) then some (intToZr (amountBelow h (q ++ [j]))) else none

open scoped Classical in
/-- The digests of the children that have been passed. -/
noncomputable def belowDigs (E : Curve G1 G2 GT) (db : Db) (h : List (List ℕ × ℤ)) (q : List ℕ) : ℕ → Option Zr := fun j =>
  if touched h (q ++ [j]) then some (((load E db (keyOf (q ++ [j]))).map (dig E)).getD 0) else none

theorem belowVals_getD (h : List (List ℕ × ℤ)) (q : List ℕ) (j : ℕ) :
    (belowVals h q j).getD 0 = intToZr (amountBelow h (q ++ [j])) := by
  unfold belowVals
  split_ifs with ht
  · rfl
  · rw [Pol.amountBelow_untouched h _ ht]; simp [intToZr]

/-- The vertex above the layer over the leaves that is stored after a history. -/
theorem inner_exact {E : Curve G1 G2 GT} (hE : E.Lawful) {env : Env} (henv : env.Lawful) {α : Zr} {F : ℕ}
    {t t' : Tree G1 G2 GT} (ht : NewTree E α F t) {L : ℕ} {hist : List (Str × ℤ)} {s s' : State}
    (hids : ValidIds t.id2Path F L hist) (h : t.puts E env hist s = some (t', s')) (q : List ℕ) (hqL : q.length + 1 < L)
    (hq : touched (byPath t.id2Path hist) q) :
    ∃ bf, load E s'.db (keyOf q) = some (innerVertex E α F bf (belowVals (byPath t.id2Path hist) q)
      (belowDigs E s'.db (byPath t.id2Path hist) q)) := by
  obtain ⟨t1, s1, h1, -, -, hgood, -⟩ :=
    puts_good hE henv α F ht.bound.le t ht.pp ht.fanOut ht.root L (by omega) hist s hids
  rw [h, Option.some.injEq, Prod.mk.injEq] at h1
  obtain ⟨rfl, rfl⟩ := h1
  obtain ⟨v, u, hv, hu⟩ := find_touched ht.root hids h q hq
  have hhe : hist ≠ [] := by
    rintro rfl
    obtain ⟨e, he, -⟩ := hq
    simp [byPath] at he
  obtain ⟨v', hv', hg⟩ := hgood hhe
  rw [hv, Option.some.injEq] at hv'
  subst hv'
  have hgu := hg.find q (by omega) u hu
  obtain ⟨n, hn⟩ : ∃ n, L - q.length = n + 1 + 1 := ⟨L - q.length - 2, by omega⟩
  rw [hn, List.nil_append] at hgu
  obtain ⟨-, -, -, -, h5⟩ := hgu
  obtain ⟨bf, hl⟩ := h5 (by omega)
  have hfind : ∀ i, Sparse.find (q ++ [i]) v = Sparse.descGet u.desc i := by
    intro i
    rw [Sparse.find_append, hu, Option.bind_some, Sparse.find_cons]
    cases Sparse.descGet u.desc i <;> rfl
  have hno : ∀ j, ¬ touched (byPath t.id2Path hist) (q ++ [j]) → Sparse.descGet u.desc j = none := by
    intro j hj
    cases hd : Sparse.descGet u.desc j with
    | none => rfl
    | some w =>
      rw [← hfind] at hd
      exact absurd (find_iff_touched ht.root hids h _ v w hv hd) hj
  have hyes : ∀ j, touched (byPath t.id2Path hist) (q ++ [j]) → ∃ w, Sparse.descGet u.desc j = some w ∧
      total F (n + 1) w = amountBelow (byPath t.id2Path hist) (q ++ [j]) := by
    intro j hj
    obtain ⟨v2, w, hv2, hw⟩ := find_touched ht.root hids h _ hj
    rw [hv, Option.some.injEq] at hv2
    subst hv2
    exact ⟨w, by rw [← hfind]; exact hw, total_eq ht.root hids h v hv (n + 1) _ (by simp; omega) w hw⟩
  refine ⟨bf, ?_⟩
  have e1 : childVals F (n + 1) u.desc = belowVals (byPath t.id2Path hist) q := by
    funext j
    unfold childVals belowVals
    split_ifs with hj
    · obtain ⟨w, hw, hs⟩ := hyes j hj
      rw [hw, Option.map_some, hs]
    · rw [hno j hj]; rfl
  have e2 : childDigs E s'.db q u.desc = belowDigs E s'.db (byPath t.id2Path hist) q := by
    funext j
    unfold childDigs belowDigs
    split_ifs with hj
    · obtain ⟨w, hw, -⟩ := hyes j hj
      rw [hw, Option.map_some]
    · rw [hno j hj]; rfl
  rw [e1, e2] at hl
  exact hl

/-- A digest is made of the commitments only. -/
theorem dig_congr (E : Curve G1 G2 GT) {x y : Vertex G1} (hV : x.V = y.V) (hW : x.W = y.W) : dig E x = dig E y := by
  unfold dig Vertex.digest
  rw [hV, hW]

/-- Sums and digests equal, commitments equal. -/
theorem inner_congr (E : Curve G1 G2 GT) (α : Zr) (F : ℕ) (bf : Zr) (vals vals' digs digs' : ℕ → Option Zr)
    (hv : ∀ j < F, (vals j).getD 0 = (vals' j).getD 0) (hd : ∀ j < F, (digs j).getD 0 = (digs' j).getD 0) :
    (innerVertex E α F bf vals digs).V = (innerVertex E α F bf vals' digs').V ∧
      (innerVertex E α F bf vals digs).W = (innerVertex E α F bf vals' digs').W := by
  have e1 : ((List.range F).map fun i => (vals i).getD 0) = (List.range F).map fun i => (vals' i).getD 0 :=
    List.map_congr_left fun i hi => hv i (List.mem_range.1 hi)
  have e2 : ((List.range F).map fun i => (digs i).getD 0) = (List.range F).map fun i => (digs' i).getD 0 :=
    List.map_congr_left fun i hi => hd i (List.mem_range.1 hi)
  have e3 : ∑ i ∈ Finset.range F, (vals i).getD 0 = ∑ i ∈ Finset.range F, (vals' i).getD 0 :=
    Finset.sum_congr rfl fun i hi => hv i (Finset.mem_range.1 hi)
  constructor
  · unfold innerVertex valVec
    dsimp only
    rw [e1, e3]
  · unfold innerVertex digVec
    dsimp only
    rw [e2]

/-! ### Rewriting an amount -/

theorem latest_again {h : List (List ℕ × ℤ)} {e : List ℕ × ℤ} (hl : latest h e.1 = e.2) (p : List ℕ) :
    latest (h ++ [e]) p = latest h p := by
  rw [latest_snoc]
  split_ifs with hp
  · rw [← hl, hp]
  · rfl

theorem paths_again {h : List (List ℕ × ℤ)} {e : List ℕ × ℤ} (he : e.1 ∈ h.map Prod.fst) :
    ((h ++ [e]).map Prod.fst).toFinset = (h.map Prod.fst).toFinset := by
  ext p
  simp only [List.map_append, List.map_cons, List.map_nil, List.mem_toFinset, List.mem_append, List.mem_singleton]
  exact ⟨fun h => h.elim id fun h => h ▸ he, .inl⟩

theorem amountBelow_again {h : List (List ℕ × ℤ)} {e : List ℕ × ℤ} (he : e.1 ∈ h.map Prod.fst) (hl : latest h e.1 = e.2)
    (q : List ℕ) : amountBelow (h ++ [e]) q = amountBelow h q := by
  unfold amountBelow
  rw [paths_again he]
  exact Finset.sum_congr rfl fun p _ => latest_again hl p

theorem pathsBelow_again {h : List (List ℕ × ℤ)} {e : List ℕ × ℤ} (he : e.1 ∈ h.map Prod.fst) (q : List ℕ) :
    pathsBelow (h ++ [e]) q = pathsBelow h q := by
  unfold pathsBelow
  rw [paths_again he]

theorem deviation_snoc (F : ℕ) (h : List (List ℕ × ℤ)) (e : List ℕ × ℤ) (q : List ℕ) (hh : ∃ e ∈ h, q <+: e.1) (he : q <+: e.1) :
    deviation F (h ++ [e]) q = deviation F h q + strayed F h (h ++ [e]) q := by
  unfold deviation
  rw [List.length_append, List.length_singleton, Finset.sum_range_succ]
  congr 1
  · refine Finset.sum_congr rfl fun n hn => ?_
    rw [Finset.mem_range] at hn
    rw [List.take_append_of_le_length hn.le, List.take_append_of_le_length (by omega), List.getElem?_append_left hn]
  · rw [List.take_left, if_pos ⟨hh, e, by rw [List.getElem?_append_right le_rfl]; simp, he⟩,
      List.take_of_length_le (by simp)]

theorem deviation_first (F : ℕ) (e : List ℕ × ℤ) (q : List ℕ) : deviation F [e] q = 0 := by
  unfold deviation
  simp

/-! ### Two histories with the same commitments -/

/-- One write each for the children 0, 2 and 3. -/
def oneHist (q : List ℕ) (m : ℤ) : List (List ℕ × ℤ) := [(q ++ [0], m), (q ++ [2], 4 * m), (q ++ [3], 4 * m)]

/-- Other amounts for two of them, and the amount of the first written twice more. -/
def otherHist (q : List ℕ) (m : ℤ) : List (List ℕ × ℤ) :=
  [(q ++ [0], m), (q ++ [3], 7 * m), (q ++ [2], m), (q ++ [0], m), (q ++ [0], m)]

theorem oneHist_amounts (q : List ℕ) (m : ℤ) : amountBelow (oneHist q m) q = 9 * m ∧
    deviation F (oneHist q m) q
      = C ((5 * m : ℤ) : Zr) * X ^ 3 + C ((9 * m : ℤ) : Zr) * X ^ 4 - C ((8 * m : ℤ) : Zr) * X ^ (F + 1) := by
  have a1 : amountBelow [(q ++ [0], m)] q = m := by
    have := amountBelow_snoc (h := []) (e := (q ++ [0], m)) (by simp) (List.prefix_append _ _)
    rw [List.nil_append] at this
    rw [this]; simp [amountBelow]
  have a2 : amountBelow [(q ++ [0], m), (q ++ [2], 4 * m)] q = 5 * m := by
    have := amountBelow_snoc (h := [(q ++ [0], m)]) (e := (q ++ [2], 4 * m)) (by simp) (List.prefix_append _ _)
    rw [List.cons_append, List.nil_append] at this
    rw [this, a1]; ring
  have a3 : amountBelow [(q ++ [0], m), (q ++ [2], 4 * m), (q ++ [3], 4 * m)] q = 9 * m := by
    have := amountBelow_snoc (h := [(q ++ [0], m), (q ++ [2], 4 * m)]) (e := (q ++ [3], 4 * m)) (by simp)
      (List.prefix_append _ _)
    rw [List.cons_append, List.cons_append, List.nil_append] at this
    rw [this, a2]; ring
  have p2 : pathsBelow [(q ++ [0], m), (q ++ [2], 4 * m)] q = 2 := by
    rw [pathsBelow_eq (by simp)]; simp [writesBelow]
  have p3 : pathsBelow [(q ++ [0], m), (q ++ [2], 4 * m), (q ++ [3], 4 * m)] q = 3 := by
    rw [pathsBelow_eq (by simp)]; simp [writesBelow]
  refine ⟨a3, ?_⟩
  have d2 := deviation_snoc F [(q ++ [0], m)] (q ++ [2], 4 * m) q ⟨_, List.mem_cons_self, List.prefix_append _ _⟩
    (List.prefix_append _ _)
  have d3 := deviation_snoc F [(q ++ [0], m), (q ++ [2], 4 * m)] (q ++ [3], 4 * m) q
    ⟨_, List.mem_cons_self, List.prefix_append _ _⟩ (List.prefix_append _ _)
  simp only [List.cons_append, List.nil_append] at d2 d3
  have l2 : latest [(q ++ [0], m)] (q ++ [2]) = 0 := by simp [latest, lastPut]
  have l3 : latest [(q ++ [0], m), (q ++ [2], 4 * m)] (q ++ [3]) = 0 := by simp [latest, lastPut]
  unfold oneHist
  rw [d3, d2, deviation_first]
  unfold strayed
  rw [a1, a2, a3, p2, p3, l2, l3]
  push_cast
  simp only [map_sub, map_mul, map_zero, map_ofNat]
  ring

theorem otherHist_amounts (q : List ℕ) (m : ℤ) : amountBelow (otherHist q m) q = 9 * m ∧
    deviation F (otherHist q m) q
      = C ((8 * m : ℤ) : Zr) * X ^ 3 + C ((6 * m : ℤ) : Zr) * X ^ 4 - C ((8 * m : ℤ) : Zr) * X ^ (F + 1) := by
  have a1 : amountBelow [(q ++ [0], m)] q = m := by
    have := amountBelow_snoc (h := []) (e := (q ++ [0], m)) (by simp) (List.prefix_append _ _)
    rw [List.nil_append] at this
    rw [this]; simp [amountBelow]
  have a2 : amountBelow [(q ++ [0], m), (q ++ [3], 7 * m)] q = 8 * m := by
    have := amountBelow_snoc (h := [(q ++ [0], m)]) (e := (q ++ [3], 7 * m)) (by simp) (List.prefix_append _ _)
    rw [List.cons_append, List.nil_append] at this
    rw [this, a1]; ring
  have a3 : amountBelow [(q ++ [0], m), (q ++ [3], 7 * m), (q ++ [2], m)] q = 9 * m := by
    have := amountBelow_snoc (h := [(q ++ [0], m), (q ++ [3], 7 * m)]) (e := (q ++ [2], m)) (by simp)
      (List.prefix_append _ _)
    rw [List.cons_append, List.cons_append, List.nil_append] at this
    rw [this, a2]; ring
  have p2 : pathsBelow [(q ++ [0], m), (q ++ [3], 7 * m)] q = 2 := by
    rw [pathsBelow_eq (by simp)]; simp [writesBelow]
  have p3 : pathsBelow [(q ++ [0], m), (q ++ [3], 7 * m), (q ++ [2], m)] q = 3 := by
    rw [pathsBelow_eq (by simp)]; simp [writesBelow]
  have l4 : latest [(q ++ [0], m), (q ++ [3], 7 * m), (q ++ [2], m)] (q ++ [0]) = m := by simp [latest, lastPut]
  have l5 : latest [(q ++ [0], m), (q ++ [3], 7 * m), (q ++ [2], m), (q ++ [0], m)] (q ++ [0]) = m := by simp [latest, lastPut]
  have a4 : amountBelow [(q ++ [0], m), (q ++ [3], 7 * m), (q ++ [2], m), (q ++ [0], m)] q = 9 * m := by
    rw [← a3]
    exact amountBelow_again (h := [(q ++ [0], m), (q ++ [3], 7 * m), (q ++ [2], m)]) (e := (q ++ [0], m)) (by simp) l4 q
  have a5 : amountBelow [(q ++ [0], m), (q ++ [3], 7 * m), (q ++ [2], m), (q ++ [0], m), (q ++ [0], m)] q = 9 * m := by
    rw [← a4]
    exact amountBelow_again (h := [(q ++ [0], m), (q ++ [3], 7 * m), (q ++ [2], m), (q ++ [0], m)]) (e := (q ++ [0], m))
      (by simp) l5 q
  have p4 : pathsBelow [(q ++ [0], m), (q ++ [3], 7 * m), (q ++ [2], m), (q ++ [0], m)] q = 3 := by
    exact (pathsBelow_again (h := [(q ++ [0], m), (q ++ [3], 7 * m), (q ++ [2], m)]) (e := (q ++ [0], m)) (by simp) q).trans p3
  have p5 : pathsBelow [(q ++ [0], m), (q ++ [3], 7 * m), (q ++ [2], m), (q ++ [0], m), (q ++ [0], m)] q = 3 := by
    exact (pathsBelow_again (h := [(q ++ [0], m), (q ++ [3], 7 * m), (q ++ [2], m), (q ++ [0], m)]) (e := (q ++ [0], m))
      (by simp) q).trans p4
  refine ⟨a5, ?_⟩
  have pre : ∀ j, q <+: q ++ [j] := fun j => List.prefix_append _ _
  have d2 := deviation_snoc F [(q ++ [0], m)] (q ++ [3], 7 * m) q ⟨_, List.mem_cons_self, pre _⟩ (pre _)
  have d3 := deviation_snoc F [(q ++ [0], m), (q ++ [3], 7 * m)] (q ++ [2], m) q ⟨_, List.mem_cons_self, pre _⟩ (pre _)
  have d4 := deviation_snoc F [(q ++ [0], m), (q ++ [3], 7 * m), (q ++ [2], m)] (q ++ [0], m) q
    ⟨_, List.mem_cons_self, pre _⟩ (pre _)
  have d5 := deviation_snoc F [(q ++ [0], m), (q ++ [3], 7 * m), (q ++ [2], m), (q ++ [0], m)] (q ++ [0], m) q
    ⟨_, List.mem_cons_self, pre _⟩ (pre _)
  simp only [List.cons_append, List.nil_append] at d2 d3 d4 d5
  have m2 : latest [(q ++ [0], m)] (q ++ [2]) = 0 := by simp [latest, lastPut]
  have m3 : latest [(q ++ [0], m), (q ++ [3], 7 * m)] (q ++ [3]) = 7 * m := by simp [latest, lastPut]
  have m4 : latest [(q ++ [0], m), (q ++ [3], 7 * m), (q ++ [2], m)] (q ++ [3]) = 7 * m := by simp [latest, lastPut]
  have m5 : latest [(q ++ [0], m), (q ++ [3], 7 * m), (q ++ [2], m), (q ++ [0], m)] (q ++ [3]) = 7 * m := by
    simp [latest, lastPut]
  unfold otherHist
  rw [d5, d4, d3, d2, deviation_first]
  unfold strayed
  rw [a1, a2, a3, a4, a5, p2, p3, p4, p5, m2, m3, m4, m5]
  push_cast
  simp only [map_sub, map_mul, map_zero, map_ofNat]
  ring

/-! ### From the root down -/

theorem valuesOf_inner (E : Curve G1 G2 GT) (α : Zr) {F : ℕ} (hF : F + 2 < 65536) (bf : Zr) (vals digs : ℕ → Option Zr) :
    valuesOf F (innerVertex E α F bf vals digs) = valVec F vals bf := by
  unfold valuesOf innerVertex valVec
  dsimp only
  congr 1
  apply List.map_congr_left
  intro j hj
  rw [List.mem_range] at hj
  rw [mapBelow_ofNat _ (by omega), if_pos hj]

theorem valuesOf_leaf {F : ℕ} (hF : F + 2 < 65536) (bf : Zr) (vals : ℕ → Option Zr) (V : G1) :
    valuesOf F (leafVertex F bf vals V) = valVec F vals bf := by
  unfold valuesOf leafVertex valVec
  dsimp only
  congr 1
  apply List.map_congr_left
  intro j hj
  rw [List.mem_range] at hj
  rw [mapBelow_ofNat _ (by omega), if_pos hj]

theorem digestsOf_inner (E : Curve G1 G2 GT) (α : Zr) {F : ℕ} (hF : F + 2 < 65536) (bf : Zr) (vals digs : ℕ → Option Zr) :
    digestsOf F (innerVertex E α F bf vals digs) = digVec F digs := by
  unfold digestsOf innerVertex digVec
  dsimp only
  congr 1
  apply List.map_congr_left
  intro j hj
  rw [List.mem_range] at hj
  rw [mapBelow_ofNat _ (by omega), if_pos hj]

theorem touched_append {h : List (List ℕ × ℤ)} {q r : List ℕ} (ht : touched h (q ++ r)) : touched h q := by
  obtain ⟨e, he, hp⟩ := ht
  exact ⟨e, he, (List.prefix_append _ _).trans hp⟩

theorem touched_lt {id2Path : Str → Option (List ℕ)} {F L : ℕ} {hist : List (Str × ℤ)} (hids : ValidIds id2Path F L hist)
    {q : List ℕ} {j : ℕ} (ht : touched (byPath id2Path hist) (q ++ [j])) : j < F := by
  obtain ⟨e, he, hp⟩ := ht
  have := (byPath_length hids e.1 (List.mem_toFinset.2 (List.mem_map.2 ⟨e, he, rfl⟩))).2
  exact this j (hp.subset (by simp))

theorem isHash_of_dig {E : Curve G1 G2 GT} (hE : E.Lawful) {x : Vertex G1} {d : Zr} (h : dig E x = d) :
    IsHashOf E (hashedAs E x) d := by
  have := digest_eq hE x
  rw [h] at this
  unfold IsHashOf hashedAs
  rw [← this]
  unfold Vertex.digest
  cases x.W <;> rfl

/-- A run of writes on a new tree. -/
structure Run (E : Curve G1 G2 GT) (env : Env) (α : Zr) (F L : ℕ) (t : Tree G1 G2 GT) (hist : List (Str × ℤ)) (db : Db) : Prop where
  ids : ValidIds t.id2Path F L hist
  new : NewTree E α F t
  run : ∃ t' s s', t.puts E env hist s = some (t', s') ∧ s'.db = db

section
variable {E : Curve G1 G2 GT} {env env₂ : Env} {α : Zr} {F L : ℕ} {t₁ t₂ : Tree G1 G2 GT} {hist₁ hist₂ : List (Str × ℤ)}
  {db₁ db₂ : Db}

theorem Run.inner (r : Run E env α F L t₁ hist₁ db₁) (hE : E.Lawful) (henv : env.Lawful) (q : List ℕ) (hqL : q.length + 1 < L)
    (hq : touched (byPath t₁.id2Path hist₁) q) :
    ∃ bf, load E db₁ (keyOf q) = some (innerVertex E α F bf (belowVals (byPath t₁.id2Path hist₁) q)
      (belowDigs E db₁ (byPath t₁.id2Path hist₁) q)) := by
  obtain ⟨t', s, s', h, rfl⟩ := r.run
  exact inner_exact hE henv r.new r.ids h q hqL hq

theorem Run.leaf (r : Run E env α F L t₁ hist₁ db₁) (hE : E.Lawful) (henv : env.Lawful) (q : List ℕ) (hqL : q.length + 1 = L)
    (hq : touched (byPath t₁.id2Path hist₁) q) :
    ∃ bf, load E db₁ (keyOf q) = some (leafVertex F bf (histVals (byPath t₁.id2Path hist₁) q)
      (com E α (valVec F (histVals (byPath t₁.id2Path hist₁) q) bf)
        + (deviation F (byPath t₁.id2Path hist₁) q).eval α • E.genG1)) := by
  obtain ⟨t', s, s', h, rfl⟩ := r.run
  exact leaf_exact hE henv r.new.bound.le r.new.pp r.new.fanOut r.new.root (by omega) r.ids h q hqL hq

theorem Run.stored (r : Run E env α F L t₁ hist₁ db₁) (hE : E.Lawful) (henv : env.Lawful) (q : List ℕ) (hqL : q.length < L)
    (hq : touched (byPath t₁.id2Path hist₁) q) : ∃ x, load E db₁ (keyOf q) = some x := by
  rcases (show q.length + 1 ≤ L from hqL).lt_or_eq with h | h
  · exact (r.inner hE henv q h hq).imp' _ fun _ h => h
  · exact (r.leaf hE henv q h hq).imp' _ fun _ h => h

/-- The values and digests under equal inner vertices are equal, or a commitment has two openings. -/
theorem inner_equal (hE : E.Lawful) (henv : env.Lawful) (henv₂ : env₂.Lawful) (r₁ : Run E env α F L t₁ hist₁ db₁)
    (r₂ : Run E env₂ α F L t₂ hist₂ db₂)
    (hb : ¬ CommitCollision E α F (byPath t₁.id2Path hist₁) (byPath t₂.id2Path hist₂) db₁ db₂) (q : List ℕ)
    (hqL : q.length + 1 < L) (h₁ : touched (byPath t₁.id2Path hist₁) q) (h₂ : touched (byPath t₂.id2Path hist₂) q)
    {x₁ x₂ : Vertex G1} (hx₁ : load E db₁ (keyOf q) = some x₁) (hx₂ : load E db₂ (keyOf q) = some x₂) (hV : x₁.V = x₂.V)
    (hW : x₁.W = x₂.W) :
    (∀ j < F, intToZr (amountBelow (byPath t₁.id2Path hist₁) (q ++ [j]))
        = intToZr (amountBelow (byPath t₂.id2Path hist₂) (q ++ [j]))) ∧
      ∀ j < F, (belowDigs E db₁ (byPath t₁.id2Path hist₁) q j).getD 0
        = (belowDigs E db₂ (byPath t₂.id2Path hist₂) q j).getD 0 := by
  have hF := r₁.new.bound
  have both : BothStore E (byPath t₁.id2Path hist₁) (byPath t₂.id2Path hist₂) db₁ db₂ q x₁ x₂ :=
    ⟨h₁, h₂, load_fromBytes hx₁, load_fromBytes hx₂⟩
  obtain ⟨bf₁, e₁⟩ := r₁.inner hE henv q hqL h₁
  obtain ⟨bf₂, e₂⟩ := r₂.inner hE henv₂ q hqL h₂
  rw [hx₁, Option.some.injEq] at e₁
  rw [hx₂, Option.some.injEq] at e₂
  have kv : valuesOf F x₁ = valuesOf F x₂ := by
    by_contra hne
    refine hb ⟨q, x₁, x₂, both, .inl ⟨hne, ?_⟩⟩
    rw [e₁, e₂] at hV
    rw [e₁, e₂, valuesOf_inner E α hF, valuesOf_inner E α hF,
      PP.commit_eq E α (F + 2) _ (by simp [valVec]) (by omega), PP.commit_eq E α (F + 2) _ (by simp [valVec]) (by omega)]
    exact congrArg some hV
  have kd : digestsOf F x₁ = digestsOf F x₂ := by
    by_contra hne
    refine hb ⟨q, x₁, x₂, both, .inr ⟨hne, ?_⟩⟩
    rw [e₁, e₂] at hW
    rw [e₁, e₂, digestsOf_inner E α hF, digestsOf_inner E α hF,
      PP.commit_eq E α (F + 2) _ (by simp [digVec]) (by omega), PP.commit_eq E α (F + 2) _ (by simp [digVec]) (by omega)]
    exact hW
  rw [e₁, e₂, valuesOf_inner E α hF, valuesOf_inner E α hF] at kv
  rw [e₁, e₂, digestsOf_inner E α hF, digestsOf_inner E α hF] at kd
  constructor
  · intro j hj
    have := congrArg (fun l => l.getD j 0) kv
    simpa [valVec, hj, List.getElem?_append, List.getD, belowVals_getD] using this
  · intro j hj
    have := congrArg (fun l => l.getD j 0) kd
    simpa [digVec, hj, List.getElem?_append, List.getD] using this

/-- Nothing broken: the same vertices are passed, and their commitments are equal. -/
theorem same_down (hE : E.Lawful) (henv : env.Lawful) (henv₂ : env₂.Lawful) (r₁ : Run E env α F L t₁ hist₁ db₁)
    (r₂ : Run E env₂ α F L t₂ hist₂ db₂) (hne₁ : hist₁ ≠ []) (hne₂ : hist₂ ≠ [])
    (hb : ¬ Broken E α F (byPath t₁.id2Path hist₁) (byPath t₂.id2Path hist₂) db₁ db₂)
    (hroot : ∃ x₁ x₂, load E db₁ (keyOf []) = some x₁ ∧ load E db₂ (keyOf []) = some x₂ ∧ x₁.V = x₂.V ∧ x₁.W = x₂.W)
    (q : List ℕ) (hqL : q.length < L) :
    (touched (byPath t₁.id2Path hist₁) q ↔ touched (byPath t₂.id2Path hist₂) q) ∧
      (touched (byPath t₁.id2Path hist₁) q → ∃ x₁ x₂, load E db₁ (keyOf q) = some x₁ ∧ load E db₂ (keyOf q) = some x₂ ∧
        x₁.V = x₂.V ∧ x₁.W = x₂.W) := by
  obtain ⟨hb1, hb2, hb3⟩ : _ ∧ _ ∧ _ := by
    unfold Broken at hb
    push Not at hb
    exact hb
  induction q using List.reverseRecOn with
  | nil =>
    have nil_t : ∀ {t : Tree G1 G2 GT} {hist : List (Str × ℤ)}, hist ≠ [] → touched (byPath t.id2Path hist) [] := by
      intro t hist hne
      cases hist with
      | nil => exact absurd rfl hne
      | cons e l => exact ⟨_, List.mem_cons_self, List.nil_prefix⟩
    exact ⟨⟨fun _ => nil_t hne₂, fun _ => nil_t hne₁⟩, fun _ => hroot⟩
  | append_singleton q j ih =>
    rw [List.length_append, List.length_singleton] at hqL
    obtain ⟨i1, i2⟩ := ih (by omega)
    have step : touched (byPath t₁.id2Path hist₁) q → j < F → 
        (belowDigs E db₁ (byPath t₁.id2Path hist₁) q j).getD 0 = (belowDigs E db₂ (byPath t₂.id2Path hist₂) q j).getD 0 := by
      intro hq hj
      obtain ⟨x₁, x₂, hx₁, hx₂, hV, hW⟩ := i2 hq
      exact (inner_equal hE henv henv₂ r₁ r₂ hb3 q (by omega) hq (i1.1 hq) hx₁ hx₂ hV hW).2 j hj
    have hqj : (q ++ [j]).length < L := by simpa using hqL
    have hiff : touched (byPath t₁.id2Path hist₁) (q ++ [j]) ↔ touched (byPath t₂.id2Path hist₂) (q ++ [j]) := by
      constructor
      · intro ht
        by_contra hc
        have := step (touched_append ht) (touched_lt r₁.ids ht)
        obtain ⟨x, hx⟩ := r₁.stored hE henv _ hqj ht
        unfold belowDigs at this
        rw [if_pos ht, if_neg hc, hx] at this
        refine hb2.1 ⟨_, x, ht, load_fromBytes hx, ?_⟩
        exact isHash_of_dig hE this
      · intro ht
        by_contra hc
        have := step (i1.2 (touched_append ht)) (touched_lt r₂.ids ht)
        obtain ⟨x, hx⟩ := r₂.stored hE henv₂ _ hqj ht
        unfold belowDigs at this
        rw [if_neg hc, if_pos ht, hx] at this
        refine hb2.2 ⟨_, x, ht, load_fromBytes hx, ?_⟩
        exact isHash_of_dig hE this.symm
    refine ⟨hiff, fun ht => ?_⟩
    obtain ⟨x₁, hx₁⟩ := r₁.stored hE henv _ hqj ht
    obtain ⟨x₂, hx₂⟩ := r₂.stored hE henv₂ _ hqj (hiff.1 ht)
    have := step (touched_append ht) (touched_lt r₁.ids ht)
    unfold belowDigs at this
    rw [if_pos ht, if_pos (hiff.1 ht), hx₁, hx₂] at this
    refine ⟨x₁, x₂, hx₁, hx₂, ?_⟩
    by_contra hc
    refine hb1 ⟨_, x₁, x₂, ⟨ht, hiff.1 ht, load_fromBytes hx₁, load_fromBytes hx₂⟩, hc, dig E x₁, ?_⟩
    exact ⟨isHash_of_dig hE rfl, isHash_of_dig hE this.symm⟩

/-- … and so are the amounts. -/
theorem same_amounts (hE : E.Lawful) (henv : env.Lawful) (henv₂ : env₂.Lawful) (r₁ : Run E env α F L t₁ hist₁ db₁)
    (r₂ : Run E env₂ α F L t₂ hist₂ db₂) (hL : 2 ≤ L) (hne₁ : hist₁ ≠ []) (hne₂ : hist₂ ≠ [])
    (hb : ¬ Broken E α F (byPath t₁.id2Path hist₁) (byPath t₂.id2Path hist₂) db₁ db₂)
    (hroot : ∃ x₁ x₂, load E db₁ (keyOf []) = some x₁ ∧ load E db₂ (keyOf []) = some x₂ ∧ x₁.V = x₂.V ∧ x₁.W = x₂.W)
    (q : List ℕ) (hqL : q.length < L) :
    intToZr (amountBelow (byPath t₁.id2Path hist₁) q) = intToZr (amountBelow (byPath t₂.id2Path hist₂) q) := by
  have hd := same_down hE henv henv₂ r₁ r₂ hne₁ hne₂ hb hroot
  have step : ∀ q, q.length + 1 < L → ∀ j < F, intToZr (amountBelow (byPath t₁.id2Path hist₁) (q ++ [j]))
        = intToZr (amountBelow (byPath t₂.id2Path hist₂) (q ++ [j])) := by
    intro q hq j hj
    by_cases ht : touched (byPath t₁.id2Path hist₁) q
    · obtain ⟨x₁, x₂, hx₁, hx₂, hV, hW⟩ := (hd q (by omega)).2 ht
      exact (inner_equal hE henv henv₂ r₁ r₂ (fun hc => hb (.inr (.inr hc))) q hq ht ((hd q (by omega)).1.1 ht) hx₁ hx₂ hV
        hW).1 j hj
    · rw [Pol.amountBelow_untouched _ _ fun h => ht (touched_append h),
        Pol.amountBelow_untouched _ _ fun h => ht ((hd q (by omega)).1.2 (touched_append h))]
  induction q using List.reverseRecOn with
  | nil =>
    rw [amountBelow_split r₁.ids [] (by omega), amountBelow_split r₂.ids [] (by omega)]
    unfold intToZr at step ⊢
    push_cast
    exact Finset.sum_congr rfl fun j hj => step [] (by simp; omega) j (Finset.mem_range.1 hj)
  | append_singleton q j _ =>
    rw [List.length_append, List.length_singleton] at hqL
    by_cases hj : j < F
    · exact step q (by omega) j hj
    · rw [Pol.amountBelow_untouched _ _ fun h => hj (touched_lt r₁.ids h),
        Pol.amountBelow_untouched _ _ fun h => hj (touched_lt r₂.ids h)]

theorem histVals_getD (h : List (List ℕ × ℤ)) (q : List ℕ) (j : ℕ) :
    (histVals h q j).getD 0 = intToZr (latest h (q ++ [j])) := by
  unfold histVals latest
  cases lastPut h (q ++ [j]) <;> simp [intToZr]

/-- Over the leaves, as long as there has been one write only. -/
theorem same_leaf (hE : E.Lawful) (henv : env.Lawful) (henv₂ : env₂.Lawful) (r₁ : Run E env α F L t₁ hist₁ db₁)
    (r₂ : Run E env₂ α F L t₂ hist₂ db₂)
    (hb : ¬ CommitCollision E α F (byPath t₁.id2Path hist₁) (byPath t₂.id2Path hist₂) db₁ db₂) (q : List ℕ)
    (hqL : q.length + 1 = L) (h₁ : touched (byPath t₁.id2Path hist₁) q) (h₂ : touched (byPath t₂.id2Path hist₂) q)
    (d₁ : (deviation F (byPath t₁.id2Path hist₁) q).eval α = 0) (d₂ : (deviation F (byPath t₂.id2Path hist₂) q).eval α = 0)
    {x₁ x₂ : Vertex G1} (hx₁ : load E db₁ (keyOf q) = some x₁) (hx₂ : load E db₂ (keyOf q) = some x₂) (hV : x₁.V = x₂.V) :
    ∀ j < F, intToZr (latest (byPath t₁.id2Path hist₁) (q ++ [j])) = intToZr (latest (byPath t₂.id2Path hist₂) (q ++ [j])) := by
  have hF := r₁.new.bound
  obtain ⟨bf₁, e₁⟩ := r₁.leaf hE henv q hqL h₁
  obtain ⟨bf₂, e₂⟩ := r₂.leaf hE henv₂ q hqL h₂
  rw [hx₁, Option.some.injEq, d₁, zero_smul, add_zero] at e₁
  rw [hx₂, Option.some.injEq, d₂, zero_smul, add_zero] at e₂
  have kv : valuesOf F x₁ = valuesOf F x₂ := by
    by_contra hne
    refine hb ⟨q, x₁, x₂, ⟨h₁, h₂, load_fromBytes hx₁, load_fromBytes hx₂⟩, .inl ⟨hne, ?_⟩⟩
    rw [e₁, e₂] at hV
    rw [e₁, e₂, valuesOf_leaf hF, valuesOf_leaf hF,
      PP.commit_eq E α (F + 2) _ (by simp [valVec]) (by omega), PP.commit_eq E α (F + 2) _ (by simp [valVec]) (by omega)]
    exact congrArg some hV
  rw [e₁, e₂, valuesOf_leaf hF, valuesOf_leaf hF] at kv
  intro j hj
  have := congrArg (fun l => l.getD j 0) kv
  simpa [valVec, hj, List.getElem?_append, List.getD, histVals_getD] using this

end

theorem deviation_one (F : ℕ) (h : List (List ℕ × ℤ)) (q : List ℕ) (hw : writesBelow h q ≤ 1) : deviation F h q = 0 := by
  unfold deviation
  refine Finset.sum_eq_zero fun n hn => if_neg ?_
  rw [Finset.mem_range] at hn
  rintro ⟨⟨e, he, hp⟩, e', he', hp'⟩
  have h1 : 0 < writesBelow (h.take n) q := List.countP_pos_iff.2 ⟨e, he, by simpa using hp⟩
  have h2 : 0 < writesBelow (h.drop n) q := by
    refine List.countP_pos_iff.2 ⟨e', ?_, by simpa using hp'⟩
    rw [List.getElem?_eq_getElem hn, Option.some.injEq] at he'
    rw [List.drop_eq_getElem_cons hn, ← he']
    exact List.mem_cons_self
  have h3 : writesBelow h q = writesBelow (h.take n) q + writesBelow (h.drop n) q := by
    unfold writesBelow
    rw [← List.countP_append, List.take_append_drop]
  omega

theorem intToZr_inj {a b : ℤ} (ha : 0 ≤ a) (hb : 0 ≤ b) (ha' : a < 2 ^ 63) (hb' : b < 2 ^ 63) (h : intToZr a = intToZr b) : a = b := by
  have := congrArg ZMod.val h
  rw [Pol.intToZr_val ha ha', Pol.intToZr_val hb hb'] at this
  omega

/-! ### From the leaves up -/

/-- All writes are below `q`. -/
def AllBelow (h : List (List ℕ × ℤ)) (q : List ℕ) : Prop := h ≠ [] ∧ ∀ e ∈ h, ∃ j, e.1 = q ++ [j]

theorem AllBelow.touched_iff {h : List (List ℕ × ℤ)} {q : List ℕ} (ha : AllBelow h q) {r : List ℕ} (hr : r.length ≤ q.length) :
    touched h r ↔ r <+: q := by
  constructor
  · rintro ⟨e, he, hp⟩
    obtain ⟨j, hj⟩ := ha.2 e he
    rw [hj] at hp
    exact List.prefix_of_prefix_length_le hp (List.prefix_append _ _) hr
  · intro hp
    obtain ⟨e, he⟩ := List.exists_mem_of_ne_nil _ ha.1
    obtain ⟨j, hj⟩ := ha.2 e he
    exact ⟨e, he, hj ▸ hp.trans (List.prefix_append _ _)⟩

theorem AllBelow.amount {h : List (List ℕ × ℤ)} {q : List ℕ} (ha : AllBelow h q) {r : List ℕ} (hr : r <+: q) :
    amountBelow h r = amountBelow h q := by
  unfold amountBelow
  refine Finset.sum_congr ?_ fun _ _ => rfl
  refine Finset.filter_congr fun p hp => ?_
  rw [List.mem_toFinset, List.mem_map] at hp
  obtain ⟨e, he, rfl⟩ := hp
  obtain ⟨j, hj⟩ := ha.2 e he
  rw [hj]
  exact ⟨fun _ => List.prefix_append _ _, fun _ => hr.trans (List.prefix_append _ _)⟩

section
variable {E : Curve G1 G2 GT} {env env₂ : Env} {α : Zr} {F L : ℕ} {t₁ t₂ : Tree G1 G2 GT} {hist₁ hist₂ : List (Str × ℤ)}
  {db₁ db₂ : Db}

/-- Equal blinding factors, equal amounts and equal commitments over the leaves: equal commitments above. -/
theorem same_up (hE : E.Lawful) (henv : env.Lawful) (henv₂ : env₂.Lawful) (r₁ : Run E env α F L t₁ hist₁ db₁)
    (r₂ : Run E env₂ α F L t₂ hist₂ db₂) (q : List ℕ) (hqL : q.length + 1 = L) (ha₁ : AllBelow (byPath t₁.id2Path hist₁) q)
    (ha₂ : AllBelow (byPath t₂.id2Path hist₂) q)
    (ham : amountBelow (byPath t₁.id2Path hist₁) q = amountBelow (byPath t₂.id2Path hist₂) q)
    (hbf : ∀ r, r <+: q → ∀ x₁ x₂, load E db₁ (keyOf r) = some x₁ → load E db₂ (keyOf r) = some x₂ →
      x₁.blindingFactor = x₂.blindingFactor)
    (hleaf : ∃ x₁ x₂, load E db₁ (keyOf q) = some x₁ ∧ load E db₂ (keyOf q) = some x₂ ∧ x₁.V = x₂.V ∧ x₁.W = x₂.W) (n : ℕ) :
    ∀ r, r <+: q → r.length + n = q.length →
      ∃ x₁ x₂, load E db₁ (keyOf r) = some x₁ ∧ load E db₂ (keyOf r) = some x₂ ∧ x₁.V = x₂.V ∧ x₁.W = x₂.W := by
  induction n with
  | zero =>
    intro r hr hl
    rw [hr.eq_of_length (by omega)]
    exact hleaf
  | succ n ih =>
    intro r hr hl
    obtain ⟨bf₁, e₁⟩ := r₁.inner hE henv r (by omega) ((ha₁.touched_iff hr.length_le).2 hr)
    obtain ⟨bf₂, e₂⟩ := r₂.inner hE henv₂ r (by omega) ((ha₂.touched_iff hr.length_le).2 hr)
    have hb := hbf r hr _ _ e₁ e₂
    change bf₁ = bf₂ at hb
    subst hb
    refine ⟨_, _, e₁, e₂, ?_⟩
    have hlen : ∀ j, (r ++ [j]).length ≤ q.length := by intro j; simp; omega
    refine inner_congr E α F bf₁ _ _ _ _ ?_ ?_
    · intro j _
      rw [belowVals_getD, belowVals_getD]
      by_cases hp : r ++ [j] <+: q
      · rw [ha₁.amount hp, ha₂.amount hp, ham]
      · rw [Pol.amountBelow_untouched _ _ fun h => hp ((ha₁.touched_iff (hlen j)).1 h),
          Pol.amountBelow_untouched _ _ fun h => hp ((ha₂.touched_iff (hlen j)).1 h)]
    · intro j _
      unfold belowDigs
      rw [ha₁.touched_iff (hlen j), ha₂.touched_iff (hlen j)]
      split_ifs with hp
      · obtain ⟨x₁, x₂, hx₁, hx₂, hV, hW⟩ := ih (r ++ [j]) hp (by simp; omega)
        rw [hx₁, hx₂]
        simp [dig_congr E hV hW]
      · rfl

end

theorem expo_valVec_split (α : Zr) (F : ℕ) (vals : ℕ → Option Zr) (bf : Zr) :
    PP.expo α (valVec F vals bf) = (∑ j ∈ Finset.range F, (vals j).getD 0 * α ^ (j + 1))
      + (∑ j ∈ Finset.range F, (vals j).getD 0) * α ^ (F + 1) + bf * α ^ (F + 2) := by
  unfold PP.expo
  have hl : (valVec F vals bf).length = F + 1 + 1 := by simp [valVec]
  rw [hl, Finset.sum_range_succ, Finset.sum_range_succ]
  congr 1
  · congr 1
    · refine Finset.sum_congr rfl fun j hj => ?_
      rw [Finset.mem_range] at hj
      simp [valVec, List.getD, List.getElem?_append, hj]
    · simp [valVec, List.getD]
  · simp [valVec, List.getD]

/-- The commitments over the leaves are the same for the two histories. -/
theorem same_leaves (E : Curve G1 G2 GT) (α : Zr) {F : ℕ} (hF : 3 < F) (q : List ℕ) (m : ℤ) (bf : Zr) :
    com E α (valVec F (histVals (oneHist q m) q) bf) + (deviation F (oneHist q m) q).eval α • E.genG1
      = com E α (valVec F (histVals (otherHist q m) q) bf) + (deviation F (otherHist q m) q).eval α • E.genG1 := by
  unfold com
  rw [← add_smul, ← add_smul]
  congr 1
  rw [expo_valVec_split, expo_valVec_split, (oneHist_amounts q m).2, (otherHist_amounts q m).2]
  have hv : ∀ j, (histVals (oneHist q m) q j).getD 0 = (histVals (otherHist q m) q j).getD 0
      + ((if j = 2 then (3 * m : Zr) else 0) - if j = 3 then (3 * m : Zr) else 0) := by
    intro j
    rw [histVals_getD, histVals_getD]
    have l1 : latest (oneHist q m) (q ++ [j]) = if j = 3 then 4 * m else if j = 2 then 4 * m else if j = 0 then m else 0 := by
      have : oneHist q m = [] ++ [(q ++ [0], m)] ++ [(q ++ [2], 4 * m)] ++ [(q ++ [3], 4 * m)] := rfl
      rw [this]
      simp only [latest_snoc, List.append_cancel_left_eq, List.cons.injEq, and_true, eq_comm (a := j)]
      rfl
    have l2 : latest (otherHist q m) (q ++ [j]) = if j = 0 then m else if j = 2 then m else if j = 3 then 7 * m else 0 := by
      have : otherHist q m = [] ++ [(q ++ [0], m)] ++ [(q ++ [3], 7 * m)] ++ [(q ++ [2], m)] ++ [(q ++ [0], m)] ++ [(q ++ [0], m)] := rfl
      rw [this]
      simp only [latest_snoc, List.append_cancel_left_eq, List.cons.injEq, and_true, eq_comm (a := j)]
      split_ifs <;> rfl
    rw [l1, l2]
    unfold intToZr
    by_cases h0 : j = 0
    · subst h0; simp
    · by_cases h2 : j = 2
      · subst h2; simp; ring
      · by_cases h3 : j = 3
        · subst h3; simp; ring
        · simp [h0, h2, h3]
  simp only [hv, add_mul, sub_mul, Finset.sum_add_distrib, Finset.sum_sub_distrib, ite_mul, zero_mul, Finset.sum_ite_eq',
    Finset.mem_range, hF, show 2 < F by omega, if_true]
  simp only [Polynomial.eval_sub, Polynomial.eval_add, Polynomial.eval_mul, Polynomial.eval_C, Polynomial.eval_pow,
    Polynomial.eval_X]
  push_cast
  ring

theorem puts_split {E : Curve G1 G2 GT} {env : Env} {t t' : Tree G1 G2 GT} {l₁ l₂ : List (Str × ℤ)} {s s' : State}
    (h : t.puts E env (l₁ ++ l₂) s = some (t', s')) :
    ∃ t1 s1, t.puts E env l₁ s = some (t1, s1) ∧ t1.puts E env l₂ s1 = some (t', s') := by
  unfold Tree.puts at h ⊢
  rw [List.foldlM_append] at h
  obtain ⟨⟨t1, s1⟩, h1, h2⟩ := Option.bind_eq_some_iff.1 h
  exact ⟨t1, s1, h1, h2⟩

end PoL.Verkle
