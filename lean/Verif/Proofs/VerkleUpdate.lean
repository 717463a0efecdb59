import Verif.Proofs.VerkleCodec
import Verif.Proofs.PointProofs
import Mathlib.Algebra.BigOperators.Group.Finset.Piecewise
import Mathlib.Algebra.BigOperators.Intervals

/-! What the update callback of the Verkle tree stores. -/

set_option linter.unusedSectionVars false

namespace PoL.Verkle
open PoL.PP

variable {G1 G2 GT : Type} [AddCommGroup G1] [Module Zr G1] [AddCommGroup G2] [Module Zr G2]
  [AddCommGroup GT] [Module Zr GT] [DecidableEq G1] [DecidableEq GT]

/-- The vertex stored under a key. -/
def load (E : Curve G1 G2 GT) (db : Db) (k : Str) : Option (Vertex G1) := fetchVertex E db (some (.key k))

theorem fetch_key (E : Curve G1 G2 GT) (db : Db) (k : Str) : fetchVertex E db (some (.key k)) = load E db k := rfl

theorem load_eq (E : Curve G1 G2 GT) (db : Db) (k : Str) :
    load E db k = if (db k).length = 0 then none else Vertex.fromBytes E (db k) := rfl

theorem load_fromBytes {E : Curve G1 G2 GT} {db : Db} {k : Str} {x : Vertex G1} (h : load E db k = some x) :
    Vertex.fromBytes E (db k) = some x := by
  rw [load_eq] at h
  split_ifs at h
  exact h

theorem store_db (E : Curve G1 G2 GT) (env : Env) (key : Str) (v : Vertex G1) (s : State) (k : Str)
    (h : k ≠ key) : (store E env key v s).db k = s.db k := by
  simp [store, Db.put, h]

theorem load_store_self {E : Curve G1 G2 GT} (hE : E.Lawful) {env : Env} (henv : env.Lawful) (key : Str)
    (v : Vertex G1) (s : State) : load E (store E env key v s).db key = some v := by
  have h : (store E env key v s).db key
      = v.bytes E (env.orderDigests s.tick v.digests) (env.orderValues s.tick v.values) := by
    simp [store, Db.put]
  rw [load_eq, h, if_neg (by simpa using bytes_ne_nil E v _ _)]
  exact fromBytes_bytes hE v _ _ (henv.digests_mem _ _) (henv.values_mem _ _) (henv.digests_nodup _ _)
    (henv.values_nodup _ _)

theorem load_congr (E : Curve G1 G2 GT) {db db' : Db} {k : Str} (h : db' k = db k) :
    load E db' k = load E db k := by
  rw [load_eq, load_eq, h]

/-- The digest of a vertex as a scalar. -/
def dig (E : Curve G1 G2 GT) (v : Vertex G1) : Zr := (v.digest E).getD 0

theorem digest_eq {E : Curve G1 G2 GT} (hE : E.Lawful) (v : Vertex G1) : v.digest E = some (dig E v) := by
  unfold dig Vertex.digest
  obtain ⟨x, hx⟩ := fieldElementFromBytes_isSome (hE.sha_len (E.g1Bytes v.V ++ (v.W.map E.g1Bytes).getD []))
  rw [hx]; rfl

/-- The map with the given entries below `F`. -/
def mapBelow (F : ℕ) (f : ℕ → Option Zr) : ZrMap := fun k => if k.toNat < F then f k.toNat else none

theorem toNat_ofNat16 {i : ℕ} (h : i < 65536) : (UInt16.ofNat i).toNat = i := by
  rw [UInt16.toNat_ofNat']; omega

theorem mapBelow_ofNat {F : ℕ} (f : ℕ → Option Zr) {i : ℕ} (h : i < 65536) :
    mapBelow F f (UInt16.ofNat i) = if i < F then f i else none := by
  unfold mapBelow
  rw [toNat_ofNat16 h]

theorem mapBelow_set {F : ℕ} (f : ℕ → Option Zr) {p : ℕ} (hp : p < F) (hF : F ≤ 65536) (x : Zr) :
    (mapBelow F f).set (UInt16.ofNat p) x = mapBelow F (Function.update f p (some x)) := by
  funext k
  unfold ZrMap.set mapBelow
  have hk : k = UInt16.ofNat p ↔ k.toNat = p := by
    constructor
    · rintro rfl; exact toNat_ofNat16 (by omega)
    · intro h; rw [← h, UInt16.ofNat_toNat]
  by_cases h : k.toNat = p
  · rw [if_pos (hk.2 h), if_pos (by omega), h, Function.update_self]
  · rw [if_neg (fun hc => h (hk.1 hc)), Function.update_of_ne h]

/-- The vector of values committed to. -/
def valVec (F : ℕ) (vals : ℕ → Option Zr) (bf : Zr) : List Zr :=
  ((List.range F).map fun i => (vals i).getD 0) ++ [∑ i ∈ Finset.range F, (vals i).getD 0, bf]

/-- The vector of digests committed to. -/
def digVec (F : ℕ) (digs : ℕ → Option Zr) : List Zr :=
  ((List.range F).map fun i => (digs i).getD 0) ++ [0, 0]

/-- The commitment to a vector. -/
def com (E : Curve G1 G2 GT) (α : Zr) (m : List Zr) : G1 := expo α m • E.genG1

/-- The vertex stored above the layer over the leaves. -/
def innerVertex (E : Curve G1 G2 GT) (α : Zr) (F : ℕ) (bf : Zr) (vals digs : ℕ → Option Zr) : Vertex G1 where
  blindingFactor := bf
  values := mapBelow F vals
  digests := mapBelow F digs
  sum := ∑ i ∈ Finset.range F, (vals i).getD 0
  V := com E α (valVec F vals bf)
  W := some (com E α (digVec F digs))

/-- The vertex stored in the layer over the leaves. -/
def leafVertex (F : ℕ) (bf : Zr) (vals : ℕ → Option Zr) (V : G1) : Vertex G1 where
  blindingFactor := bf
  values := mapBelow F vals
  digests := .empty
  sum := ∑ i ∈ Finset.range F, (vals i).getD 0
  V := V
  W := none

theorem sum_update (F p : ℕ) (hp : p < F) (vals : ℕ → Option Zr) (x : Zr) :
    ∑ i ∈ Finset.range F, ((Function.update vals p (some x)) i).getD 0
      = (∑ i ∈ Finset.range F, (vals i).getD 0) + (x - (vals p).getD 0) := by
  have h : ∀ i, ((Function.update vals p (some x)) i).getD 0
      = Function.update (fun i => (vals i).getD 0) p x i := by
    intro i
    by_cases hi : i = p
    · subst hi; simp
    · simp [hi]
  simp only [h]
  rw [Finset.sum_update_of_mem (by simpa using hp), ← Finset.add_sum_erase _ _ (Finset.mem_range.2 hp),
    Finset.sdiff_singleton_eq_erase]
  ring

theorem set_last_two (F : ℕ) (f : ℕ → Zr) (a b : Zr) :
    (((List.range (F + 2)).map f).set (F + 2 - 2) a).set (F + 2 - 1) b = (List.range F).map f ++ [a, b] := by
  simp only [List.range_succ, List.map_append, List.map_cons, List.map_nil, List.append_assoc,
    Nat.add_sub_cancel]
  have e : F + 2 - 1 = F + 1 := rfl
  rw [e, List.set_append_right _ _ (by simp), List.set_append_right _ _ (by simp)]
  simp

theorem innerLoop_eq {E : Curve G1 G2 GT} (hE : E.Lawful) (db : Db) (f : ℕ → Option Data)
    (ch : ℕ → Option (Vertex G1)) (n i : ℕ) (a : InnerAcc) (hi : i + n ≤ 65536)
    (hch : ∀ j, i ≤ j → j < i + n → (f j = none ∧ ch j = none) ∨
      ∃ d x, f j = some d ∧ ch j = some x ∧ fetchVertex E db (some d) = some x) :
    innerLoop E db ((List.range' i n).map f) i a = some
      { sum := a.sum + ((List.range' i n).map fun j => ((ch j).map Vertex.sum).getD 0).sum
        values := fun k => if i ≤ k.toNat ∧ k.toNat < i + n then ((ch k.toNat).map Vertex.sum).or (a.values k)
          else a.values k
        digests := fun k => if i ≤ k.toNat ∧ k.toNat < i + n then ((ch k.toNat).map (dig E)).or (a.digests k)
          else a.digests k
        m := a.m ++ (List.range' i n).map fun j => ((ch j).map Vertex.sum).getD 0
        d := a.d ++ (List.range' i n).map fun j => ((ch j).map (dig E)).getD 0 } := by
  induction n generalizing i a with
  | zero =>
    simp only [List.range'_zero, List.map_nil, innerLoop, List.sum_nil, add_zero, List.append_nil]
    have h : ∀ k : UInt16, ¬ (i ≤ k.toNat ∧ k.toNat < i) := by intro k; omega
    simp only [h, if_false]
  | succ n ih =>
    have hr : List.range' i (n + 1) = i :: List.range' (i + 1) n := rfl
    have hkk : ∀ k : UInt16, k = UInt16.ofNat i ↔ k.toNat = i := by
      intro k
      constructor
      · rintro rfl; exact toNat_ofNat16 (by omega)
      · intro h; rw [← h, UInt16.ofNat_toNat]
    rw [hr, List.map_cons]
    rcases hch i le_rfl (by omega) with ⟨h1, h2⟩ | ⟨d, x, h1, h2, h3⟩
    · rw [h1, innerLoop, ih (i + 1) _ (by omega) (fun j h4 h5 => hch j (by omega) (by omega))]
      simp only [List.map_cons, h2, Option.map_none, Option.getD_none, List.sum_cons, zero_add, intToZr,
        Int.cast_zero, List.append_assoc, List.singleton_append]
      congr 2
      · funext k
        by_cases hk : k.toNat = i
        · rw [if_neg (by omega), if_pos (by omega), hk, h2]; simp
        · by_cases hk2 : i + 1 ≤ k.toNat ∧ k.toNat < i + 1 + n
          · rw [if_pos hk2, if_pos (by omega)]
          · rw [if_neg hk2, if_neg (by omega)]
      · funext k
        by_cases hk : k.toNat = i
        · rw [if_neg (by omega), if_pos (by omega), hk, h2]; simp
        · by_cases hk2 : i + 1 ≤ k.toNat ∧ k.toNat < i + 1 + n
          · rw [if_pos hk2, if_pos (by omega)]
          · rw [if_neg hk2, if_neg (by omega)]
    · rw [h1, innerLoop]
      refine obind_step h3 (obind_step (digest_eq hE x) ?_)
      rw [ih (i + 1) _ (by omega) (fun j h4 h5 => hch j (by omega) (by omega))]
      simp only [List.map_cons, h2, Option.map_some, Option.getD_some, List.sum_cons,
        List.append_assoc, List.singleton_append, add_assoc]
      congr 2
      · funext k
        by_cases hk : k.toNat = i
        · rw [if_neg (by omega), if_pos (by omega), hk, h2, (hkk k).2 hk]; simp [ZrMap.set]
        · have : k ≠ UInt16.ofNat i := fun hc => hk ((hkk k).1 hc)
          by_cases hk2 : i + (1 + n) ≤ k.toNat ∨ k.toNat < i + 1
          · rw [if_neg (by omega), if_neg (by omega)]; simp [ZrMap.set, this]
          · rw [if_pos (by omega), if_pos (by omega)]; simp [ZrMap.set, this]
      · funext k
        by_cases hk : k.toNat = i
        · rw [if_neg (by omega), if_pos (by omega), hk, h2, (hkk k).2 hk]; simp [ZrMap.set]
        · have : k ≠ UInt16.ofNat i := fun hc => hk ((hkk k).1 hc)
          by_cases hk2 : i + (1 + n) ≤ k.toNat ∨ k.toNat < i + 1
          · rw [if_neg (by omega), if_neg (by omega)]; simp [ZrMap.set, this]
          · rw [if_pos (by omega), if_pos (by omega)]; simp [ZrMap.set, this]

theorem sum_range_map (F : ℕ) (f : ℕ → Zr) : ((List.range F).map f).sum = ∑ i ∈ Finset.range F, f i := rfl

theorem updateInner_new {E : Curve G1 G2 GT} (hE : E.Lawful) (α : Zr) (F : ℕ) (hF : F ≤ 65536) (env : Env)
    (key : Str) (f : ℕ → Option Data) (ch : ℕ → Option (Vertex G1)) (index : ℕ) (s : State)
    (hch : ∀ j, j < F → (f j = none ∧ ch j = none) ∨
      ∃ d x, f j = some d ∧ ch j = some x ∧ fetchVertex E s.db (some d) = some x) :
    updateInnerLayer E (newPublicParams E α (F + 2)) env key none ((List.range F).map f) index s
      = some (some (.key key), store E env key
          (innerVertex E α F (env.rand s.tick) (fun i => (ch i).map Vertex.sum) (fun i => (ch i).map (dig E))) s) := by
  unfold updateInnerLayer
  dsimp only
  rw [List.range_eq_range']
  refine obind_step (innerLoop_eq hE s.db f ch F 0 _ (by omega) (fun j _ h => hch j (by omega))) ?_
  dsimp only
  rw [← List.range_eq_range']
  have e1 : intToZr 0 + ((List.range F).map fun j => ((ch j).map Vertex.sum).getD 0).sum
      = ∑ i ∈ Finset.range F, ((ch i).map Vertex.sum).getD 0 := by
    rw [sum_range_map]; simp [intToZr]
  have ez : intToZr 0 = 0 := by simp [intToZr]
  simp only [e1, List.nil_append, List.append_assoc, List.singleton_append]
  refine obind_step (commit_eq E α (F + 2) _ (by simp) (by omega)) ?_
  refine obind_step (commit_eq E α (F + 2) _ (by simp) (by omega)) ?_
  have e2 : ∀ (f : ℕ → Option Zr), (fun k : UInt16 => if 0 ≤ k.toNat ∧ k.toNat < 0 + F then (f k.toNat).or (ZrMap.empty k)
      else ZrMap.empty k) = mapBelow F f := by
    intro f
    funext k
    simp [mapBelow, ZrMap.empty]
  simp only [Option.pure_def, Option.some.injEq, Prod.mk.injEq, true_and]
  congr 1
  unfold innerVertex com valVec digVec
  rw [← e2, ← e2, ez]

theorem updateInner_old {E : Curve G1 G2 GT} (hE : E.Lawful) (α : Zr) (F : ℕ) (hF : F + 2 ≤ 65536) (env : Env)
    (key : Str) (node : Data) (f : ℕ → Option Data) (p : ℕ) (hp : p < F) (s : State) (bf : Zr)
    (vals digs : ℕ → Option Zr) (hvd : ∀ i, (vals i).isSome = (digs i).isSome)
    (hx : load E s.db key = some (innerVertex E α F bf vals digs)) (y : Vertex G1)
    (hy : fetchVertex E s.db (f p) = some y) :
    updateInnerLayer E (newPublicParams E α (F + 2)) env key (some node) ((List.range F).map f) p s
      = some (some (.key key), store E env key
          (innerVertex E α F bf (Function.update vals p (some y.sum)) (Function.update digs p (some (dig E y)))) s) := by
  unfold updateInnerLayer
  dsimp only
  refine obind_step hx ?_
  have hd : ((List.range F).map f)[p]? = some (f p) := by simp [hp]
  refine obind_step hd (obind_step hy (obind_step (digest_eq hE y) ?_))
  have hN : (newPublicParams E α (F + 2)).N = F + 2 := rfl
  rw [hN]
  have e1 : (innerVertex E α F bf vals digs).values = mapBelow F vals := rfl
  have e2 : (innerVertex E α F bf vals digs).digests = mapBelow F digs := rfl
  have e3 : (innerVertex E α F bf vals digs).blindingFactor = bf := rfl
  have e4 : (innerVertex E α F bf vals digs).sum = ∑ i ∈ Finset.range F, (vals i).getD 0 := rfl
  rw [e1, e2, e3, e4, mapBelow_set _ hp (by omega), mapBelow_set _ hp (by omega)]
  have e5 : updateSum (∑ i ∈ Finset.range F, (vals i).getD 0)
      ((mapBelow F vals (UInt16.ofNat p)).getD (intToZr 0)) y.sum
      = ∑ i ∈ Finset.range F, ((Function.update vals p (some y.sum)) i).getD 0 := by
    rw [sum_update _ _ hp, mapBelow_ofNat _ (by omega), if_pos hp]
    simp [updateSum, intToZr]
  rw [e5]
  set vals' := Function.update vals p (some y.sum) with hvals'
  set digs' := Function.update digs p (some (dig E y)) with hdigs'
  have hvd' : ∀ i, (vals' i).isSome = (digs' i).isSome := by
    intro i
    by_cases hi : i = p
    · subst hi; simp [vals', digs']
    · simp [vals', digs', hi, hvd]
  have hdm : ((List.range (F + 2)).mapM fun i =>
      if (mapBelow F vals' (UInt16.ofNat i)).isSome then mapBelow F digs' (UInt16.ofNat i) else some (intToZr 0))
      = some ((List.range (F + 2)).map fun i => (mapBelow F digs' (UInt16.ofNat i)).getD 0) := by
    apply mapM_some
    intro i hi
    rw [List.mem_range] at hi
    rw [mapBelow_ofNat _ (by omega), mapBelow_ofNat _ (by omega)]
    by_cases hiF : i < F
    · rw [if_pos hiF, if_pos hiF, hvd']
      cases digs' i <;> simp [intToZr]
    · simp [hiF, intToZr]
  refine obind_step hdm ?_
  rw [if_neg (by simp)]
  have elen : ((List.range (F + 2)).map fun i => (mapBelow F vals' (UInt16.ofNat i)).getD (intToZr 0)).length = F + 2 := by
    simp
  rw [elen, set_last_two]
  have e6 : ((List.range F).map fun i => (mapBelow F vals' (UInt16.ofNat i)).getD (intToZr 0))
      = (List.range F).map fun i => (vals' i).getD 0 := by
    apply List.map_congr_left
    intro i hi
    rw [List.mem_range] at hi
    rw [mapBelow_ofNat _ (by omega), if_pos hi]
    simp [intToZr]
  have e7 : ((List.range (F + 2)).map fun i => (mapBelow F digs' (UInt16.ofNat i)).getD 0) = digVec F digs' := by
    rw [List.range_succ, List.range_succ, digVec]
    simp only [List.map_append, List.map_cons, List.map_nil, List.append_assoc, List.singleton_append]
    rw [mapBelow_ofNat _ (by omega), mapBelow_ofNat _ (by omega), if_neg (by omega), if_neg (by omega)]
    simp only [Option.getD_none, List.append_cancel_right_eq]
    apply List.map_congr_left
    intro i hi
    rw [List.mem_range] at hi
    rw [mapBelow_ofNat _ (by omega), if_pos hi]
  rw [e6, e7]
  refine obind_step (commit_eq E α (F + 2) _ (by simp) (by omega)) ?_
  refine obind_step (commit_eq E α (F + 2) _ (by simp [digVec]) (by omega)) ?_
  rfl

theorem leafLoop_eq (f : ℕ → Option Data) (am : ℕ → Option ℤ) (n i : ℕ) (sum : Zr) (values : ZrMap)
    (m : List Zr) (hi : i + n ≤ 65536)
    (ham : ∀ j, i ≤ j → j < i + n → f j = (am j).map Data.amount) :
    leafLoop ((List.range' i n).map f) i (sum, values, m) = some
      (sum + ((List.range' i n).map fun j => ((am j).map intToZr).getD 0).sum,
        (fun k => if i ≤ k.toNat ∧ k.toNat < i + n then ((am k.toNat).map intToZr).or (values k) else values k),
        m ++ (List.range' i n).map fun j => ((am j).map intToZr).getD 0) := by
  induction n generalizing i sum values m with
  | zero =>
    simp only [List.range'_zero, List.map_nil, leafLoop, List.sum_nil, add_zero, List.append_nil]
    have h : ∀ k : UInt16, ¬ (i ≤ k.toNat ∧ k.toNat < i) := by intro k; omega
    simp only [h, if_false]
  | succ n ih =>
    have hr : List.range' i (n + 1) = i :: List.range' (i + 1) n := rfl
    have hkk : ∀ k : UInt16, k = UInt16.ofNat i ↔ k.toNat = i := by
      intro k
      constructor
      · rintro rfl; exact toNat_ofNat16 (by omega)
      · intro h; rw [← h, UInt16.ofNat_toNat]
    rw [hr, List.map_cons]
    have h1 := ham i le_rfl (by omega)
    cases h2 : am i with
    | none =>
      rw [h2, Option.map_none] at h1
      rw [h1, leafLoop, ih (i + 1) _ _ _ (by omega) (fun j h4 h5 => ham j (by omega) (by omega))]
      simp only [List.map_cons, h2, Option.map_none, Option.getD_none, List.sum_cons, zero_add, intToZr,
        Int.cast_zero, List.append_assoc, List.singleton_append]
      congr 3
      funext k
      by_cases hk : k.toNat = i
      · rw [if_neg (by omega), if_pos (by omega), hk, h2]; simp
      · by_cases hk2 : i + 1 ≤ k.toNat ∧ k.toNat < i + 1 + n
        · rw [if_pos hk2, if_pos (by omega)]
        · rw [if_neg hk2, if_neg (by omega)]
    | some b =>
      rw [h2, Option.map_some] at h1
      rw [h1, leafLoop]
      refine obind_step (rfl : Data.int64 (.amount b) = some b) ?_
      dsimp only
      rw [ih (i + 1) _ _ _ (by omega) (fun j h4 h5 => ham j (by omega) (by omega))]
      simp only [List.map_cons, h2, Option.map_some, Option.getD_some, List.sum_cons,
        List.append_assoc, List.singleton_append, add_assoc]
      congr 3
      funext k
      by_cases hk : k.toNat = i
      · rw [if_neg (by omega), if_pos (by omega), hk, h2, (hkk k).2 hk]; simp [ZrMap.set]
      · have : k ≠ UInt16.ofNat i := fun hc => hk ((hkk k).1 hc)
        by_cases hk2 : i + (1 + n) ≤ k.toNat ∨ k.toNat < i + 1
        · rw [if_neg (by omega), if_neg (by omega)]; simp [ZrMap.set, this]
        · rw [if_pos (by omega), if_pos (by omega)]; simp [ZrMap.set, this]

theorem updateLeaf_new (E : Curve G1 G2 GT) (α : Zr) (F : ℕ) (hF : F ≤ 65536) (env : Env)
    (key : Str) (f : ℕ → Option Data) (am : ℕ → Option ℤ) (index : ℕ) (s : State)
    (ham : ∀ j, j < F → f j = (am j).map Data.amount) :
    updateLayerAboveLeaves E (newPublicParams E α (F + 2)) env key none ((List.range F).map f) index s
      = some (some (.key key), store E env key
          (leafVertex F (env.rand s.tick) (fun i => (am i).map intToZr)
            (com E α (valVec F (fun i => (am i).map intToZr) (env.rand s.tick)))) s) := by
  unfold updateLayerAboveLeaves
  dsimp only
  rw [List.range_eq_range']
  refine obind_step (leafLoop_eq f am F 0 _ _ _ (by omega) (fun j _ h => ham j (by omega))) ?_
  dsimp only
  rw [← List.range_eq_range']
  have e1 : intToZr 0 + ((List.range F).map fun j => ((am j).map intToZr).getD 0).sum
      = ∑ i ∈ Finset.range F, ((am i).map intToZr).getD 0 := by
    rw [sum_range_map]; simp [intToZr]
  simp only [e1, List.nil_append, List.append_assoc, List.singleton_append]
  refine obind_step (commit_eq E α (F + 2) _ (by simp) (by omega)) ?_
  have e2 : ∀ (f : ℕ → Option Zr), (fun k : UInt16 => if 0 ≤ k.toNat ∧ k.toNat < 0 + F then (f k.toNat).or (ZrMap.empty k)
      else ZrMap.empty k) = mapBelow F f := by
    intro f
    funext k
    simp [mapBelow, ZrMap.empty]
  simp only [Option.pure_def, Option.some.injEq, Prod.mk.injEq, true_and]
  congr 1
  unfold leafVertex com valVec
  rw [← e2]

/-- The number of entries of a map. -/
theorem size_mapBelow (F : ℕ) (hF : F ≤ 65536) (f : ℕ → Option Zr) :
    (mapBelow F f).size = (List.range F).countP fun i => (f i).isSome := by
  unfold ZrMap.size
  have : (65536 : ℕ) = F + (65536 - F) := by omega
  rw [this, List.range_add, List.countP_append]
  have h1 : (List.range F).countP (fun i => (mapBelow F f (UInt16.ofNat i)).isSome)
      = (List.range F).countP fun i => (f i).isSome := by
    apply List.countP_congr
    intro i hi
    rw [List.mem_range] at hi
    rw [mapBelow_ofNat _ (by omega), if_pos hi]
  have h2 : ((List.range (65536 - F)).map (F + ·)).countP (fun i => (mapBelow F f (UInt16.ofNat i)).isSome) = 0 := by
    rw [List.countP_eq_zero]
    intro i hi
    obtain ⟨j, hj, rfl⟩ := List.mem_map.1 hi
    rw [List.mem_range] at hj
    rw [mapBelow_ofNat _ (by omega), if_neg (by omega)]
    simp
  rw [h1, h2, add_zero]

theorem size_mapBelow_le (F : ℕ) (hF : F ≤ 65536) (f : ℕ → Option Zr) : (mapBelow F f).size ≤ F := by
  rw [size_mapBelow F hF]
  exact (List.countP_le_length).trans (by simp)

/-- The second and later updates of a vertex over the leaves: the exact new commitment. -/
theorem updateLeaf_old (E : Curve G1 G2 GT) (α : Zr) (F : ℕ) (hF : F + 2 ≤ 65536) (env : Env)
    (key : Str) (node : Data) (f : ℕ → Option Data) (p : ℕ) (hp : p < F) (s : State) (bf : Zr)
    (vals : ℕ → Option Zr) (V : G1) (hx : load E s.db key = some (leafVertex F bf vals V)) (b : ℤ)
    (hb : f p = some (.amount b)) :
    let vals' := Function.update vals p (some (intToZr b))
    let k := (List.range F).countP fun i => (vals' i).isSome
    let m := ((List.range (F + 2)).map fun i => if i < F then (vals i).getD 0 else 0) ++
      [∑ i ∈ Finset.range F, (vals' i).getD 0]
    updateLayerAboveLeaves E (newPublicParams E α (F + 2)) env key (some node) ((List.range F).map f) p s
      = some (some (.key key), store E env key
          (leafVertex F bf vals' (V + (intToZr b - (vals p).getD 0) • α ^ (p + 1) • E.genG1
            + ((∑ i ∈ Finset.range F, (vals' i).getD 0) - m.getD k 0) • α ^ (k + 1) • E.genG1)) s) := by
  intro vals' k m
  unfold updateLayerAboveLeaves
  dsimp only
  refine obind_step hx ?_
  have hd : ((List.range F).map f)[p]? = some (f p) := by simp [hp]
  refine obind_step hd (obind_step hb (obind_step (rfl : Data.int64 (.amount b) = some b) ?_))
  have hN : (newPublicParams E α (F + 2)).N = F + 2 := rfl
  rw [hN]
  have e1 : (leafVertex F bf vals V).values = mapBelow F vals := rfl
  have e4 : (leafVertex F bf vals V).sum = ∑ i ∈ Finset.range F, (vals i).getD 0 := rfl
  have e4' : (leafVertex F bf vals V).V = V := rfl
  rw [e1, e4, e4', mapBelow_set _ hp (by omega)]
  have e5 : updateSum (∑ i ∈ Finset.range F, (vals i).getD 0)
      ((mapBelow F vals (UInt16.ofNat p)).getD (intToZr 0)) (intToZr b)
      = ∑ i ∈ Finset.range F, (vals' i).getD 0 := by
    rw [sum_update _ _ hp, mapBelow_ofNat _ (by omega), if_pos hp]
    simp [updateSum, intToZr]
  rw [e5, size_mapBelow F (by omega)]
  have e6 : ((List.range (F + 2)).map fun i => (mapBelow F vals (UInt16.ofNat i)).getD (intToZr 0))
      = (List.range (F + 2)).map fun i => if i < F then (vals i).getD 0 else 0 := by
    apply List.map_congr_left
    intro i hi
    rw [List.mem_range] at hi
    rw [mapBelow_ofNat _ (by omega)]
    split_ifs <;> simp [intToZr]
  rw [e6]
  change ((newPublicParams E α (F + 2)).update V m (intToZr b) p >>= fun V' => _) = _
  have hk : k ≤ F := (List.countP_le_length).trans (by simp)
  have hmlen : m.length = F + 3 := by simp [m]
  have hup : ∀ (C : G1) (x : Zr) (i : ℕ), i < F + 2 →
      (newPublicParams E α (F + 2)).update C m x i = some (C + (x - m.getD i 0) • α ^ (i + 1) • E.genG1) := by
    intro C x i hi
    unfold PP.update
    refine obind_step (new_G1s_lt E α (F + 2) hi) ?_
    have hm : m[i]? = some (m.getD i 0) := by
      rw [List.getD_eq_getElem?_getD, List.getElem?_eq_getElem (by omega)]; rfl
    refine obind_step hm ?_
    simp only [Option.pure_def, Option.some.injEq]
    rw [sub_smul]; abel
  refine obind_step (hup V (intToZr b) p (by omega)) ?_
  refine obind_step (hup _ _ k (by omega)) ?_
  have hmp : m.getD p 0 = (vals p).getD 0 := by
    rw [List.getD_eq_getElem?_getD, List.getElem?_append_left (by simp; omega)]
    simp [hp, show p < F + 2 by omega]
  rw [hmp]
  rfl

end PoL.Verkle
