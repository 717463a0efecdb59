import Verif.Proofs.RangeExtract
import Verif.Props.Range

/-!
# Honest transcript trees of the range proof
-/

set_option linter.unusedSectionVars false

namespace PoL.BP

open Finset

variable {A : Type} [AddCommGroup A] [Module Zr A] [DecidableEq A]

theorem natCast_inj {a b : ℕ} (ha : a < 2 ^ 63) (hb : b < 2 ^ 63) (h : (a : Zr) = b) : a = b := by
  have := congrArg ZMod.val h
  rwa [ZMod.val_natCast_of_lt (lt_trans ha two_pow_63_lt_order),
    ZMod.val_natCast_of_lt (lt_trans hb two_pow_63_lt_order)] at this

theorem ofNat_ne {a b : ℕ} (ha : a < 2 ^ 63) (hb : b < 2 ^ 63) (h : a ≠ b) : (a : Zr) ≠ b :=
  fun e => h (natCast_inj ha hb e)

/-- The honest tree of inner-product transcripts. -/
def honestTTree (U : A) : (k : ℕ) → (a b : List Zr) → (g h : List A) → TTree A
  | 0, a, b, _, _ => .leaf (a.headD 0) (b.headD 0)
  | k + 1, a, b, g, h =>
    let n := 2 ^ k
    let t (x : Zr) := honestTTree U k (foldV x x⁻¹ n a) (foldV x⁻¹ x n b) (foldG x⁻¹ x n g) (foldG x x⁻¹ n h)
    .node (dot (a.take n) (g.drop n) + dot (b.drop n) (h.take n) + dot (a.take n) (b.drop n) • U)
      (dot (a.drop n) (g.take n) + dot (b.take n) (h.drop n) + dot (a.drop n) (b.take n) • U)
      ((1 : ℕ) : Zr) ((2 : ℕ) : Zr) ((3 : ℕ) : Zr) ((4 : ℕ) : Zr)
      (t (1 : ℕ)) (t (2 : ℕ)) (t (3 : ℕ)) (t (4 : ℕ))

theorem honestTTree_wf (U : A) : ∀ (k : ℕ) (a b : List Zr) (g h : List A), (honestTTree U k a b g h).WellFormed k
  | 0, _, _, _, _ => trivial
  | k + 1, a, b, g, h => by
    have nz : ∀ n : ℕ, n ≠ 0 → n < 2 ^ 63 → (n : Zr) ≠ 0 := fun n h0 h1 => by
      have := ofNat_ne h1 (by norm_num : 0 < 2 ^ 63) h0
      rwa [Nat.cast_zero] at this
    have sq : ∀ m n : ℕ, m ^ 2 < 2 ^ 63 → n ^ 2 < 2 ^ 63 → m ^ 2 ≠ n ^ 2 → (m : Zr) ^ 2 ≠ (n : Zr) ^ 2 :=
      fun m n h1 h2 hne => by
        have := ofNat_ne h1 h2 hne
        push_cast at this
        exact this
    refine ⟨?_, nz 1 (by norm_num) (by norm_num), nz 2 (by norm_num) (by norm_num), nz 3 (by norm_num) (by norm_num),
      nz 4 (by norm_num) (by norm_num), honestTTree_wf U k .., honestTTree_wf U k .., honestTTree_wf U k ..,
      honestTTree_wf U k ..⟩
    simp only [List.nodup_cons, List.mem_cons, List.not_mem_nil, or_false, not_or, not_false_eq_true, List.nodup_nil,
      and_true]
    exact ⟨⟨sq 1 2 (by norm_num) (by norm_num) (by norm_num), sq 1 3 (by norm_num) (by norm_num) (by norm_num),
      sq 1 4 (by norm_num) (by norm_num) (by norm_num)⟩,
      ⟨sq 2 3 (by norm_num) (by norm_num) (by norm_num), sq 2 4 (by norm_num) (by norm_num) (by norm_num)⟩,
      sq 3 4 (by norm_num) (by norm_num) (by norm_num)⟩

theorem honestTTree_accepted (U : A) : ∀ (k : ℕ) (a b : List Zr) (g h : List A), a.length = 2 ^ k → b.length = 2 ^ k →
    g.length = 2 ^ k → h.length = 2 ^ k →
    ∀ p ∈ (honestTTree U k a b g h).paths, acceptsWith U p.1 (dot a b • U + dot a g + dot b h) g h p.2.1 p.2.2
  | 0, a, b, g, h, ha, hb, hg, hh => by
    obtain ⟨a0, rfl⟩ := List.length_eq_one_iff.1 ha
    obtain ⟨b0, rfl⟩ := List.length_eq_one_iff.1 hb
    obtain ⟨g0, rfl⟩ := List.length_eq_one_iff.1 hg
    obtain ⟨h0, rfl⟩ := List.length_eq_one_iff.1 hh
    intro p hp
    simp only [honestTTree, TTree.paths, List.mem_singleton] at hp
    subst hp
    refine ⟨g0, h0, rfl, rfl, ?_⟩
    simp only [dot_cons, dot_nil_left, List.headD_cons, smul_eq_mul]
    module
  | k + 1, a, b, g, h, ha, hb, hg, hh => by
    have e : 2 ^ (k + 1) = 2 * 2 ^ k := by rw [pow_succ, mul_comm]
    rw [e] at ha hb hg hh
    have key : ∀ n : ℕ, n ≠ 0 → n < 2 ^ 63 → ∀ p ∈ (honestTTree U k (foldV (n : Zr) (n : Zr)⁻¹ (2 ^ k) a)
        (foldV (n : Zr)⁻¹ n (2 ^ k) b) (foldG (n : Zr)⁻¹ n (2 ^ k) g) (foldG (n : Zr) (n : Zr)⁻¹ (2 ^ k) h)).paths,
        acceptsWith U (((n : Zr), dot (a.take (2 ^ k)) (g.drop (2 ^ k)) + dot (b.drop (2 ^ k)) (h.take (2 ^ k))
            + dot (a.take (2 ^ k)) (b.drop (2 ^ k)) • U,
          dot (a.drop (2 ^ k)) (g.take (2 ^ k)) + dot (b.take (2 ^ k)) (h.drop (2 ^ k))
            + dot (a.drop (2 ^ k)) (b.take (2 ^ k)) • U) :: p.1) (dot a b • U + dot a g + dot b h) g h p.2.1 p.2.2 := by
      intro n h0 h1 p hp
      have hn : (n : Zr) ≠ 0 := by
        have := ofNat_ne h1 (by norm_num : 0 < 2 ^ 63) h0
        rwa [Nat.cast_zero] at this
      have := honestTTree_accepted U k _ _ _ _ (foldV_length ha) (foldV_length hb) (foldG_length hg) (foldG_length hh) p hp
      rw [fold_identity hn U ha hb hg hh] at this
      rw [acceptsWith, halvesG_eq _ _ g _ hg, halvesG_eq _ _ h _ hh, sq]
      exact this
    rw [honestTTree]
    simp only []
    rw [acceptsTree_node]
    exact ⟨key 1 (by norm_num) (by norm_num), key 2 (by norm_num) (by norm_num), key 3 (by norm_num) (by norm_num),
      key 4 (by norm_num) (by norm_num)⟩

/-- The honest tree of reduction transcripts. -/
def honestITree : (k : ℕ) → (v : List Zr) → (g : List A) → ITree A
  | 0, v, _ => .leaf (v.headD 0)
  | k + 1, v, g =>
    let n := 2 ^ k
    let t (x : Zr) := honestITree k (foldV 1 x n v) (foldG 1 x⁻¹ n g)
    .node (dot (v.drop n) (g.take n)) (dot (v.take n) (g.drop n))
      ((1 : ℕ) : Zr) ((2 : ℕ) : Zr) ((3 : ℕ) : Zr) ((4 : ℕ) : Zr)
      (t (1 : ℕ)) (t (2 : ℕ)) (t (3 : ℕ)) (t (4 : ℕ))

theorem honestITree_wf : ∀ (k : ℕ) (v : List Zr) (g : List A), (honestITree k v g).WellFormed k
  | 0, _, _ => trivial
  | k + 1, v, g => by
    have nz : ∀ n : ℕ, n ≠ 0 → n < 2 ^ 63 → (n : Zr) ≠ 0 := fun n h0 h1 => by
      have := ofNat_ne h1 (by norm_num : 0 < 2 ^ 63) h0
      rwa [Nat.cast_zero] at this
    refine ⟨?_, nz 1 (by norm_num) (by norm_num), nz 2 (by norm_num) (by norm_num), nz 3 (by norm_num) (by norm_num),
      nz 4 (by norm_num) (by norm_num), honestITree_wf k .., honestITree_wf k .., honestITree_wf k ..,
      honestITree_wf k ..⟩
    simp only [List.nodup_cons, List.mem_cons, List.not_mem_nil, or_false, not_or, not_false_eq_true, List.nodup_nil,
      and_true]
    exact ⟨⟨ofNat_ne (by norm_num) (by norm_num) (by norm_num), ofNat_ne (by norm_num) (by norm_num) (by norm_num),
      ofNat_ne (by norm_num) (by norm_num) (by norm_num)⟩,
      ⟨ofNat_ne (by norm_num) (by norm_num) (by norm_num), ofNat_ne (by norm_num) (by norm_num) (by norm_num)⟩,
      ofNat_ne (by norm_num) (by norm_num) (by norm_num)⟩

theorem honestITree_accepted : ∀ (k : ℕ) (v : List Zr) (g : List A), v.length = 2 ^ k → g.length = 2 ^ k →
    ∀ p ∈ (honestITree k v g).paths, irAccepts p.1 (dot v g) g p.2 ∧ p.2 = dot v (monomials (p.1.map Prod.fst))
  | 0, v, g, hv, hg => by
    obtain ⟨v0, rfl⟩ := List.length_eq_one_iff.1 hv
    obtain ⟨g0, rfl⟩ := List.length_eq_one_iff.1 hg
    intro p hp
    simp only [honestITree, ITree.paths, List.mem_singleton] at hp
    subst hp
    exact ⟨⟨g0, rfl, by simp⟩, by simp [monomials]⟩
  | k + 1, v, g, hv, hg => by
    have e : 2 ^ (k + 1) = 2 * 2 ^ k := by rw [pow_succ, mul_comm]
    rw [e] at hv hg
    have key : ∀ n : ℕ, n ≠ 0 → n < 2 ^ 63 →
        ∀ p ∈ (honestITree k (foldV 1 (n : Zr) (2 ^ k) v) (foldG 1 (n : Zr)⁻¹ (2 ^ k) g)).paths,
        irAccepts (((n : Zr), dot (v.drop (2 ^ k)) (g.take (2 ^ k)), dot (v.take (2 ^ k)) (g.drop (2 ^ k))) :: p.1)
          (dot v g) g p.2 ∧ p.2 = dot v (monomials ((((n : Zr), dot (v.drop (2 ^ k)) (g.take (2 ^ k)),
            dot (v.take (2 ^ k)) (g.drop (2 ^ k))) :: p.1).map Prod.fst)) := by
      intro n h0 h1 p hp
      have hn : (n : Zr) ≠ 0 := by
        have := ofNat_ne h1 (by norm_num : 0 < 2 ^ 63) h0
        rwa [Nat.cast_zero] at this
      obtain ⟨q1, q2⟩ := honestITree_accepted k _ _ (foldV_length hv) (foldG_length hg) p hp
      have pl := ITree.path_length k _ (honestITree_wf k _ _) p hp
      constructor
      · rw [irAccepts, halvesG_eq _ _ g _ hg]
        rw [dot_fold hv hg, mul_inv_cancel₀ hn] at q1
        have ed : dot v g = dot (v.take (2 ^ k)) (g.take (2 ^ k)) + dot (v.drop (2 ^ k)) (g.drop (2 ^ k)) :=
          dot_take_drop _ v g
        rw [ed]
        convert q1 using 1
        module
      · rw [List.map_cons, monomials, dot_monomials (n := 2 ^ k) _ hv (by rw [monomials_length, List.length_map, pl])]
        exact q2
    rw [honestITree]
    simp only []
    rw [irTree_node (Q := fun l u => irAccepts l (dot v g) g u ∧ u = dot v (monomials (l.map Prod.fst)))]
    exact ⟨key 1 (by norm_num) (by norm_num), key 2 (by norm_num) (by norm_num), key 3 (by norm_num) (by norm_num),
      key 4 (by norm_num) (by norm_num)⟩

theorem bits_sum (N : ℕ) : ∀ m, ∑ j ∈ range m, 2 ^ j * (N / 2 ^ j % 2) = N % 2 ^ m
  | 0 => by simp [Nat.mod_one]
  | m + 1 => by rw [Finset.sum_range_succ, bits_sum N m, Nat.mod_pow_succ]

/-- The bits of the values, then zeros. -/
def honestBits (n : ℕ) (v : ℕ → Zr) (i : ℕ) : Zr :=
  if i < n * 63 then (((v (i / 63)).val / 2 ^ (i % 63) % 2 : ℕ) : Zr) else 0

/-- The complements of the bits, then zeros. -/
def honestComplement (n : ℕ) (v : ℕ → Zr) (i : ℕ) : Zr := if i < n * 63 then 1 - honestBits n v i else 0

theorem honestBits_zero_one (n : ℕ) (v : ℕ → Zr) (i : ℕ) : honestBits n v i = 0 ∨ honestBits n v i = 1 := by
  rw [honestBits]
  split_ifs
  · rcases Nat.mod_two_eq_zero_or_one ((v (i / 63)).val / 2 ^ (i % 63)) with h | h <;> simp [h]
  · exact Or.inl rfl

theorem honestBits_sum (n : ℕ) (v : ℕ → Zr) (i : ℕ) (hi : i < n) (hv : (v i).val < 2 ^ 63) :
    ∑ j ∈ range 63, 2 ^ j * honestBits n v (i * 63 + j) = v i := by
  have : ∀ j ∈ range 63, (2 : Zr) ^ j * honestBits n v (i * 63 + j) = ((2 ^ j * ((v i).val / 2 ^ j % 2) : ℕ) : Zr) := by
    intro j hj
    have hj' := Finset.mem_range.1 hj
    have h1 : (i * 63 + j) % 63 = j := by omega
    have h2 : (i * 63 + j) / 63 = i := by omega
    have h3 : i * 63 + j < n * 63 := by omega
    rw [honestBits, if_pos h3, h1, h2]
    push_cast
    rfl
  rw [Finset.sum_congr rfl this, ← Nat.cast_sum, bits_sum, Nat.mod_eq_of_lt hv, ZMod.natCast_zmod_val]

theorem sum_ite_smul (n : ℕ) (y : Zr) (f : ℕ → A) :
    ∑ i ∈ range (n * 64), (if i < n * 63 then y else 0) • f i = ∑ i ∈ range (n * 63), y • f i := by
  rw [show n * 64 = n * 63 + n by ring, Finset.sum_range_add]
  have e1 : ∀ i ∈ range (n * 63), (if i < n * 63 then y else 0) • f i = y • f i := fun i hi => by
    rw [if_pos (Finset.mem_range.1 hi)]
  have e2 : ∀ i ∈ range n, (if n * 63 + i < n * 63 then y else 0) • f (n * 63 + i) = 0 := fun i _ => by
    rw [if_neg (by omega), zero_smul]
  rw [Finset.sum_congr rfl e1, Finset.sum_congr rfl e2, Finset.sum_const_zero, add_zero]

theorem getD_map_range {B : Type} [Zero B] (f : ℕ → B) (n : ℕ) {i : ℕ} (hi : i < n) :
    ((List.range n).map f).getD i 0 = f i := by
  simp [List.getD_eq_getElem?_getD, hi]

/-- The left vector of the inner-product argument. -/
def honestA (n : ℕ) (v : ℕ → Zr) (y1 : Zr) (i : ℕ) : Zr := honestBits n v i + if i < n * 63 then y1 else 0

/-- The right vector of the inner-product argument. -/
def honestB (n : ℕ) (v : ℕ → Zr) (r : List Zr) (x y0 y1 : Zr) (i : ℕ) : Zr :=
  (honestComplement n v i + if i < n * 63 then y1 else 0) * y0 ^ i + y1 ^ 2 * rangeWeight n r x i

/-- The honest answers to the challenges `y0`, `y1` and `x0`, without blinding. -/
def honestY (g : RangeGens A) (k : ℕ) (v : ℕ → Zr) (x : Zr) (rs : List Zr) (y0 y1 : Zr) (e : Fin 2) : YAnswer A where
  x0 := ((e.val + 1 : ℕ) : Zr)
  C1 := 0
  C2 := 0
  zs q :=
    { z := (q.val : Zr), τ := 0, ρ := 0,
      c := rangeConstant (2 ^ k) rs.reverse x (∑ i ∈ range (2 ^ k), v i * bitMonomial rs.reverse i) y0 y1
      tree := honestTTree (((e.val + 1 : ℕ) : Zr) • g.U) (k + 6)
        ((List.range (2 ^ k * 64)).map (honestA (2 ^ k) v y1))
        ((List.range (2 ^ k * 64)).map (honestB (2 ^ k) v rs.reverse x y0 y1))
        ((List.range (2 ^ k * 64)).map g.Hs) ((List.range (2 ^ k * 64)).map fun i => y0⁻¹ ^ i • g.Fs i) }

/-- The honest tree for the values `v`, without blinding except for that of the commitment. -/
def honestRTree (g : RangeGens A) (k : ℕ) (r : Zr) (v : ℕ → Zr) : RTree A where
  W := 0
  Q := ∑ i ∈ range (2 ^ k * 64), honestBits (2 ^ k) v i • g.Hs i
    + ∑ i ∈ range (2 ^ k * 64), honestComplement (2 ^ k) v i • g.Fs i
  xs j :=
    { x := (j.val : Zr), γ := -r,
      tree := honestITree k ((List.range (2 ^ k)).map v) ((List.range (2 ^ k)).map g.Gs)
      next := fun rs =>
        { R := 0
          S0 := (List.range (2 ^ k * 64)).map fun i => ((i + 1 : ℕ) : Zr)
          S1 := fun _ => [((0 : ℕ) : Zr), ((1 : ℕ) : Zr), ((2 : ℕ) : Zr)]
          ans := honestY g k v (j.val : Zr) rs } }

theorem honestRTree_wf (g : RangeGens A) (k : ℕ) (hk : k ≤ 50) (r : Zr) (v : ℕ → Zr) :
    (honestRTree g k r v).WellFormed k := by
  have hk' : 2 ^ k * 64 < 2 ^ 63 := by
    calc 2 ^ k * 64 ≤ 2 ^ 50 * 64 := Nat.mul_le_mul_right _ (Nat.pow_le_pow_right (by norm_num) hk)
      _ < 2 ^ 63 := by norm_num
  refine ⟨ofNat_ne (a := 0) (b := 1) (by norm_num) (by norm_num) (by norm_num), fun j => ⟨honestITree_wf _ _ _, fun p _ => ?_⟩⟩
  refine ⟨?_, by simp [honestRTree], ?_, fun y0 _ => ⟨?_, by simp [honestRTree], fun y1 _ => ⟨?_, fun e => ⟨?_, ?_, fun q => honestTTree_wf _ _ _ _ _ _⟩⟩⟩⟩
  · refine List.Nodup.map_on (fun a ha b hb h => ?_) List.nodup_range
    have := natCast_inj (by have := List.mem_range.1 ha; omega) (by have := List.mem_range.1 hb; omega) h
    omega
  · simp only [honestRTree, List.mem_map, List.mem_range, not_exists, not_and]
    intro i hi h
    rw [← Nat.cast_zero] at h
    exact absurd (natCast_inj (by omega) (by norm_num) h) (by omega)
  · simp only [honestRTree, List.nodup_cons, List.mem_cons, List.not_mem_nil, or_false, not_or, not_false_eq_true,
      List.nodup_nil, and_true]
    exact ⟨⟨ofNat_ne (by norm_num) (by norm_num) (by norm_num), ofNat_ne (by norm_num) (by norm_num) (by norm_num)⟩,
      ofNat_ne (by norm_num) (by norm_num) (by norm_num)⟩
  · exact ofNat_ne (a := 1) (b := 2) (by norm_num) (by norm_num) (by norm_num)
  · intro h
    have h' : ((e.val + 1 : ℕ) : Zr) = ((0 : ℕ) : Zr) := by rw [Nat.cast_zero]; exact h
    exact absurd (natCast_inj (by have := e.isLt; omega) (by norm_num) h') (by omega)
  · intro q q' hne h
    exact hne (Fin.ext (natCast_inj (by have := q.isLt; omega) (by have := q'.isLt; omega) h))

theorem honest_equation (n : ℕ) (v : ℕ → Zr) (hv : ∀ i < n, (v i).val < 2 ^ 63) (x : Zr) (r : List Zr) (y0 y1 : Zr) :
    rangeEquation n (honestBits n v) (honestComplement n v) v (fun _ => 0) x r y0 y1 := by
  have h := Props.C18_honest_vectors_satisfy_equation n (honestBits n v) (fun _ => 0)
    (fun i _ => honestBits_zero_one n v i) (fun i _ => by rw [honestBits, if_neg (by omega)]) x r y0 y1
  unfold rangeEquation at h ⊢
  have e : ∀ i ∈ range n, ((∑ j ∈ range 63, 2 ^ j * honestBits n v (i * 63 + j)) + x * 0) * bitMonomial r i
      = (v i + x * 0) * bitMonomial r i := fun i hi => by
    rw [honestBits_sum n v i (Finset.mem_range.1 hi) (hv i (Finset.mem_range.1 hi))]
  rw [Finset.sum_congr rfl e] at h
  exact h

theorem honestRTree_accepted (g : RangeGens A) (k : ℕ) (hk : k ≤ 50) (r : Zr) (v : ℕ → Zr)
    (hv : ∀ i < 2 ^ k, (v i).val < 2 ^ 63) :
    (honestRTree g k r v).Accepted g (2 ^ k) (r • g.F + ∑ i ∈ range (2 ^ k), v i • g.Gs i) := by
  intro j p hp
  simp only []
  intro y0 h0 y1 _ e q l hl
  have hy0 : y0 ≠ 0 := fun h => (((honestRTree_wf g k hk r v).2 j).2 p hp).2.2.1 (h ▸ h0)
  obtain ⟨i1, i2⟩ := honestITree_accepted k _ _ (by simp) (by simp) p hp
  have pl := ITree.path_length k _ (honestITree_wf k _ _) p hp
  rw [dot_monomials_sum _ _ k (by simp) (by rw [List.length_map, pl])] at i2
  have i2' : p.2 = ∑ i ∈ range (2 ^ k), v i * bitMonomial (p.1.map Prod.fst).reverse i := by
    rw [i2]
    refine Finset.sum_congr rfl fun i hi => ?_
    rw [getD_map_range _ _ (Finset.mem_range.1 hi)]
  have t1 := honestTTree_accepted _ _ _ _ _ _ (by simp [pow_add]) (by simp [pow_add]) (by simp [pow_add])
    (by simp [pow_add]) l hl
  have hc : rangeConstant (2 ^ k) (p.1.map Prod.fst).reverse (j.val : Zr)
      (∑ i ∈ range (2 ^ k), v i * bitMonomial (p.1.map Prod.fst).reverse i) y0 y1
      = ∑ i ∈ range (2 ^ k * 64), honestA (2 ^ k) v y1 i
        * honestB (2 ^ k) v (p.1.map Prod.fst).reverse (j.val : Zr) y0 y1 i := by
    symm
    refine (rangeEquation_iff_value (2 ^ k) (honestBits (2 ^ k) v) (honestComplement (2 ^ k) v) v (fun _ => 0) _ _ _ y0 y1
      (by simp)).2 ?_
    exact honest_equation _ _ hv _ _ _ _
  refine ⟨?_, ?_, ?_⟩
  · rw [dot_map_map_range] at i1
    convert i1 using 1
    simp only [honestRTree]
    module
  · rw [dot_map_map_range, dot_map_map_range, dot_map_map_range] at t1
    show acceptsWith (((e.val + 1 : ℕ) : Zr) • g.U) l.1 (rangeStatement g (2 ^ k)
      (∑ i ∈ range (2 ^ k * 64), honestBits (2 ^ k) v i • g.Hs i
        + ∑ i ∈ range (2 ^ k * 64), honestComplement (2 ^ k) v i • g.Fs i) 0 (p.1.map Prod.fst).reverse (j.val : Zr) y0 y1
        (q.val : Zr) 0 + (((e.val + 1 : ℕ) : Zr) * rangeConstant (2 ^ k) (p.1.map Prod.fst).reverse (j.val : Zr)
          (∑ i ∈ range (2 ^ k), v i * bitMonomial (p.1.map Prod.fst).reverse i) y0 y1) • g.U) _ _ l.2.1 l.2.2
    rw [hc, rangeStatement]
    simp only [smul_eq_mul] at t1
    have e1 : ∑ i ∈ range (2 ^ k * 64), honestA (2 ^ k) v y1 i • g.Hs i
        = ∑ i ∈ range (2 ^ k * 64), honestBits (2 ^ k) v i • g.Hs i + ∑ i ∈ range (2 ^ k * 63), y1 • g.Hs i := by
      simp only [honestA, add_smul, Finset.sum_add_distrib]
      rw [sum_ite_smul]
    have e2 : ∑ i ∈ range (2 ^ k * 64), honestB (2 ^ k) v (p.1.map Prod.fst).reverse (j.val : Zr) y0 y1 i • y0⁻¹ ^ i • g.Fs i
        = ∑ i ∈ range (2 ^ k * 64), honestComplement (2 ^ k) v i • g.Fs i + ∑ i ∈ range (2 ^ k * 63), y1 • g.Fs i
          + ∑ i ∈ range (2 ^ k * 64), (y1 ^ 2 * rangeWeight (2 ^ k) (p.1.map Prod.fst).reverse (j.val : Zr) i) • y0⁻¹ ^ i • g.Fs i := by
      rw [← sum_ite_smul, ← Finset.sum_add_distrib, ← Finset.sum_add_distrib]
      refine Finset.sum_congr rfl fun i _ => ?_
      have hp : y0 ^ i * y0⁻¹ ^ i = 1 := by rw [← mul_pow, mul_inv_cancel₀ hy0, one_pow]
      rw [honestB, add_smul, mul_smul, smul_smul (y0 ^ i), hp, one_smul, add_smul]
    rw [e1, e2] at t1
    convert t1 using 1
    module
  · simp only [honestRTree, honestY]
    rw [i2']
    simp

end PoL.BP
