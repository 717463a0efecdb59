import Verif.Proofs.Bits
import Verif.Proofs.Challenge

/-!
# C56: bit decomposition; C57: vector operations
-/

set_option linter.unusedSectionVars false

namespace PoL.Props

/-! ## C56 -/

/-- `Bits(n, L)`: entries 0 or 1, little-endian value `n`, length `max L (bit length of n)`. -/
theorem C56_bits (n : Zr) (L : ℕ) :
    (∀ b ∈ bits n L, b = 0 ∨ b = 1) ∧
    ((bits n L).zipIdx.map fun p => p.1 * 2 ^ p.2).sum = n.val ∧
    (bits n L).length = max L (Nat.size n.val) := by
  refine ⟨?_, ?_, ?_⟩
  · intro b hb
    rw [bits_eq] at hb
    have := bitsPad_le_one _ _ b hb
    omega
  · have key : ∀ (l : List ℕ) (k : ℕ), ((l.zipIdx k).map fun p => p.1 * 2 ^ p.2).sum = 2 ^ k * Nat.ofDigits 2 l := by
      intro l
      induction l with
      | nil => intro k; simp
      | cons a l ih =>
        intro k
        rw [List.zipIdx_cons, List.map_cons, List.sum_cons, ih, Nat.ofDigits_cons]
        ring
    rw [key, pow_zero, one_mul, bits_eq, bitsPad_value]
  · rw [bits_eq, bitsPad, List.length_append, List.length_replicate]
    have : (bitsLoop n.val).length = Nat.size n.val := by
      apply le_antisymm
      · rw [bitsLoop_length_le_iff]; exact Nat.lt_size_self _
      · rw [Nat.size_le, ← bitsLoop_length_le_iff]
    omega

/-- Each entry of `Bits` is the corresponding binary digit; positions past the bit length hold 0. -/
theorem C56_entry (n : Zr) (L i : ℕ) (h : i < (bits n L).length) :
    (bits n L)[i] = n.val / 2 ^ i % 2 := by
  have key : ∀ (i k m : ℕ) (h : i < (bitsPad k m).length), (bitsPad k m)[i] = m / 2 ^ i % 2 := by
    intro i
    induction i with
    | zero =>
      intro k m h
      rw [pow_zero, Nat.div_one]
      by_cases hm : m = 0
      · subst hm; simp [bitsPad, bitsLoop_zero]
      · simp [bitsPad, bitsLoop_succ hm]
    | succ i ih =>
      intro k m h
      rw [pow_succ', ← Nat.div_div_eq_div_mul]
      by_cases hm : m = 0
      · subst hm; simp [bitsPad, bitsLoop_zero]
      · have e : bitsPad k m = m % 2 :: bitsPad (k - 1) (m / 2) := by
          simp only [bitsPad, bitsLoop_succ hm, List.length_cons, List.cons_append]
          rw [Nat.sub_sub, Nat.add_comm 1]
        have h2 : i < (bitsPad (k - 1) (m / 2)).length := by
          rw [e, List.length_cons] at h; omega
        rw [← ih (k - 1) (m / 2) h2]
        simp only [e, List.getElem_cons_succ]
  have := key i L n.val (by rw [← bits_eq]; exact h)
  simpa only [bits_eq] using this

/-- `BitsBigEndian` and `ReverseBits` reverse. -/
theorem C56_big_endian (n : Zr) (L : ℕ) :
    (bitsBigEndian n L).length = (bits n L).length ∧
    ∀ i (h : i < (bitsBigEndian n L).length) (h' : (bits n L).length - 1 - i < (bits n L).length),
      (bitsBigEndian n L)[i] = (bits n L)[(bits n L).length - 1 - i] := by
  refine ⟨by simp [bitsBigEndian, reverseBits], ?_⟩
  intro i h h'
  simp [bitsBigEndian, reverseBits]

/-- `Vec.Bits` concatenates: if every scalar fits in `L` bits, entry `L*k+i` is bit `i` of scalar `k`. -/
theorem C56_vec_bits (v : List Zr) (L : ℕ) (hv : ∀ x ∈ v, x.val < 2 ^ L) :
    (Vec.vbits v L).length = L * v.length ∧
    ∀ k (hk : k < v.length) (i : ℕ), i < L → (Vec.vbits v L)[L * k + i]? = some (v[k].val / 2 ^ i % 2) := by
  have hlen : ∀ x : Zr, x.val < 2 ^ L → (bits x L).length = L := by
    intro x hx; rw [bits_eq, bitsPad_length hx]
  induction v with
  | nil => simp [Vec.vbits]
  | cons x v ih =>
    obtain ⟨ihl, ihe⟩ := ih fun y hy => hv y (List.mem_cons_of_mem _ hy)
    have hx := hlen x (hv x List.mem_cons_self)
    have e : Vec.vbits (x :: v) L = bits x L ++ Vec.vbits v L := by simp [Vec.vbits]
    refine ⟨by rw [e, List.length_append, hx, ihl, List.length_cons]; ring, ?_⟩
    intro k hk i hi
    rw [e]
    cases k with
    | zero =>
      rw [mul_zero, zero_add, List.getElem?_append_left (by omega), List.getElem?_eq_getElem (by omega),
        C56_entry]
      simp
    | succ k =>
      rw [List.getElem?_append_right (by rw [hx, Nat.mul_succ]; omega), hx,
        show L * (k + 1) + i - L = L * k + i by rw [Nat.mul_succ]; omega]
      rw [ihe k (by simpa using hk) i hi]
      simp

/-- Example: thirteen in six bits, and a pair of scalars. -/
example : bits 13 6 = [1, 0, 1, 1, 0, 0] ∧ (∀ x ∈ [(3 : Zr), 1], x.val < 2 ^ 2) := by
  have h13 : (13 : Zr).val = 13 := by
    have h := ZMod.val_natCast_of_lt (n := order) (a := 13) (lt_trans (by norm_num) two_pow_63_lt_order)
    exact_mod_cast h
  refine ⟨?_, ?_⟩
  · rw [bits_eq, h13]
    simp [bitsPad, bitsLoop_succ, bitsLoop_zero]
  · intro x hx
    simp only [List.mem_cons, List.not_mem_nil, or_false] at hx
    rcases hx with rfl | rfl
    · have h := ZMod.val_natCast_of_lt (n := order) (a := 3) (lt_trans (by norm_num) two_pow_63_lt_order)
      have h : (3 : Zr).val = 3 := by exact_mod_cast h
      rw [h]; norm_num
    · have h := ZMod.val_natCast_of_lt (n := order) (a := 1) (lt_trans (by norm_num) two_pow_63_lt_order)
      have h : (1 : Zr).val = 1 := by exact_mod_cast h
      rw [h]; norm_num

/-! ## C57 -/

/-- `r` is the entrywise combination of `v` and `w` under `f`. -/
def Entrywise {α β γ : Type} (f : α → β → γ) (v : List α) (w : List β) (r : List γ) : Prop :=
  r.length = v.length ∧ ∀ i (hr : i < r.length) (hv : i < v.length) (hw : i < w.length), r[i] = f v[i] w[i]

theorem entrywise_iff {α β γ : Type} (f : α → β → γ) (v : List α) (w : List β) (r : List γ)
    (h : v.length ≤ w.length) : Entrywise f v w r ↔ List.zipWith f v w = r := by
  constructor
  · rintro ⟨hl, he⟩
    apply List.ext_getElem
    · simp; omega
    · intro i h1 h2
      rw [List.getElem_zipWith]
      exact (he i h2 (by omega) (by omega)).symm
  · rintro rfl
    refine ⟨by simp; omega, ?_⟩
    intro i hr hv hw
    rw [List.getElem_zipWith]

/-- `Vec.Add` returns the entrywise sum, exactly when the lengths agree. -/
theorem C57_add (v w r : List Zr) :
    Vec.add v w = some r ↔ v.length = w.length ∧ Entrywise (fun a b => a + b) v w r := by
  by_cases h : v.length = w.length
  · rw [entrywise_iff _ _ _ _ h.le, Vec.add_eq h]; simp [h]
  · simp [Vec.add, h]

/-- `Vec.Sub`. -/
theorem C57_sub (v w r : List Zr) :
    Vec.sub v w = some r ↔ v.length = w.length ∧ Entrywise (fun a b => a - b) v w r := by
  by_cases h : v.length = w.length
  · rw [entrywise_iff _ _ _ _ h.le, Vec.sub_eq h]; simp [h]
  · simp [Vec.sub, h]

/-- `Vec.HadamardProd`. -/
theorem C57_hadamard (v w r : List Zr) :
    Vec.hadamardProd v w = some r ↔ v.length = w.length ∧ Entrywise (fun a b => a * b) v w r := by
  by_cases h : v.length = w.length
  · rw [entrywise_iff _ _ _ _ h.le, Vec.hadamardProd_eq h]; simp [h]
  · simp [Vec.hadamardProd, h]

/-- `Vec.InnerProd`. -/
theorem C57_inner_prod (v w : List Zr) (r : Zr) :
    Vec.innerProd v w = some r ↔
      v.length = w.length ∧ r = ∑ i ∈ Finset.range v.length, v.getD i 0 * w.getD i 0 := by
  by_cases h : v.length = w.length
  · rw [Vec.innerProd_eq h, dot_eq_sum_range v w _ rfl h.symm]; simp [h, eq_comm]
  · simp [Vec.innerProd, h]

variable {G1 G2 GT : Type} [AddCommGroup G1] [Module Zr G1] [AddCommGroup G2] [Module Zr G2]
  [AddCommGroup GT] [Module Zr GT]

/-- `Vec.Exp`: the multi-exponentiation; lengths must agree and be positive. -/
theorem C57_exp (v : List Zr) (g : List G1) (r : G1) :
    Vec.exp v g = some r ↔
      v.length = g.length ∧ v ≠ [] ∧ r = ∑ i ∈ Finset.range v.length, v.getD i 0 • g.getD i 0 := by
  by_cases h : v.length = g.length
  · by_cases hne : g = []
    · subst hne
      have hv : v = [] := List.eq_nil_of_length_eq_zero h
      subst hv
      simp [Vec.exp]
    · have hv : v ≠ [] := by rintro rfl; exact hne (List.eq_nil_of_length_eq_zero h.symm)
      rw [Vec.exp_eq h hne, dot_eq_sum_range v g _ rfl h.symm]; simp [h, hv, eq_comm]
  · simp [Vec.exp, h]

/-- `Vec.Product`. -/
theorem C57_product (v : List Zr) (r : Zr) : Vec.product v = some r ↔ v ≠ [] ∧ r = v.prod := by
  cases v with
  | nil => simp [Vec.product]
  | cons x xs => simp [Vec.product, foldl_mul_eq_prod, eq_comm]

/-- `Vec.Mul`, `Vec.Zero`, `Vec.Reverse`, `Vec.Concat`, `Vec.Size`: entrywise, for every vector. -/
theorem C57_unary (v w : List Zr) (x : Zr) :
    Vec.mul v x = v.map (fun a => x * a) ∧
    Vec.zero v = List.replicate v.length 0 ∧
    (Vec.concat v w).length = v.length + w.length ∧
    (∀ i, i < v.length → (Vec.concat v w)[i]? = v[i]? ∧ (Vec.reverse v)[i]? = v[v.length - 1 - i]?) ∧
    (∀ i, (Vec.concat v w)[v.length + i]? = w[i]?) ∧
    (Vec.reverse v).length = v.length ∧
    Vec.size v = 32 * v.length := by
  refine ⟨by simp [Vec.mul, mul_comm], by simp [Vec.zero, intToZr, List.map_const'], by simp [Vec.concat], ?_, ?_,
    by simp [Vec.reverse], ?_⟩
  · intro i hi
    refine ⟨by simp [Vec.concat, List.getElem?_append_left hi], ?_⟩
    simp [Vec.reverse, List.getElem?_reverse hi]
  · intro i
    rw [Vec.concat, List.getElem?_append_right (by omega), Nat.add_sub_cancel_left]
  · have : ∀ (l : List Zr) (c : ℕ), l.foldl (fun c x => c + (zrBytes x).length) c = c + 32 * l.length := by
      intro l
      induction l with
      | nil => simp
      | cons a l ih => intro c; rw [List.foldl_cons, ih, zrBytes_length, List.length_cons]; ring
    rw [Vec.size, this, zero_add]

/-- `Vec.PowBitVec`: the entry where the bit is set, one elsewhere. -/
theorem C57_pow_bit_vec (v : List Zr) (e : List ℕ) (r : List Zr) :
    Vec.powBitVec v e = some r ↔
      v.length ≤ e.length ∧ Entrywise (fun a b => if b = 0 then 1 else a) v e r := by
  by_cases h : v.length ≤ e.length
  · rw [entrywise_iff _ _ _ _ h, Vec.powBitVec, if_neg (by omega)]; simp [h]
  · rw [Vec.powBitVec, if_pos (by omega)]; simp [h]

/-- `PowerSeries(n, x)` is `1, x, …, x^(n-1)`. -/
theorem C57_power_series (n : ℕ) (x : Zr) : powerSeries n x = (List.range n).map fun i => x ^ i := by
  have key : ∀ (n : ℕ) (y : Zr), powerSeriesLoop x n y = (List.range n).map fun i => y * x ^ i := by
    intro n
    induction n with
    | zero => intro y; rfl
    | succ n ih =>
      intro y
      rw [powerSeriesLoop, ih, List.range_succ_eq_map, List.map_cons, List.map_map, pow_zero, mul_one]
      congr 1
      apply List.map_congr_left
      intro i _
      simp only [Function.comp_apply, Nat.succ_eq_add_one, pow_succ']
      ring
  rw [powerSeries, key]
  simp

/-- `Evens` and `Odds` split an even-length vector into its even-index and odd-index entries, and panic on
odd lengths. -/
theorem C57_evens_odds (v : List Zr) :
    (v.length % 2 = 1 → Vec.evens v = none ∧ Vec.odds v = none) ∧
    (v.length % 2 = 0 → ∃ e o, Vec.evens v = some e ∧ Vec.odds v = some o ∧
      e.length = v.length / 2 ∧ o.length = v.length / 2 ∧
      ∀ i, i < v.length / 2 → e[i]? = v[2 * i]? ∧ o[i]? = v[2 * i + 1]?) := by
  refine ⟨fun h => by simp [Vec.evens, Vec.odds, h], fun h => ?_⟩
  refine ⟨Vec.everySecond v, Vec.everySecond v.tail, by simp [Vec.evens, h], by simp [Vec.odds, h], ?_⟩
  have key : ∀ (n : ℕ) (v : List Zr), v.length = 2 * n →
      (Vec.everySecond v).length = n ∧ (Vec.everySecond v.tail).length = n ∧
      ∀ i, i < n → (Vec.everySecond v)[i]? = v[2 * i]? ∧ (Vec.everySecond v.tail)[i]? = v[2 * i + 1]? := by
    intro n
    induction n with
    | zero =>
      intro v hv
      have : v = [] := List.eq_nil_of_length_eq_zero (by omega)
      subst this
      simp [Vec.everySecond]
    | succ n ih =>
      intro v hv
      match v, hv with
      | a :: b :: t, hv =>
        have ht : t.length = 2 * n := by simp at hv; omega
        obtain ⟨h1, h2, h3⟩ := ih t ht
        have e1 : Vec.everySecond (a :: b :: t) = a :: Vec.everySecond t := rfl
        have e2 : Vec.everySecond (a :: b :: t).tail = b :: Vec.everySecond t.tail := by
          rw [List.tail_cons]
          cases t with
          | nil => rfl
          | cons c t => rfl
        rw [e1, e2]
        refine ⟨by simp [h1], by simp [h2], ?_⟩
        intro i hi
        cases i with
        | zero => simp
        | succ i =>
          obtain ⟨h4, h5⟩ := h3 i (by omega)
          rw [show 2 * (i + 1) = 2 * i + 1 + 1 by ring]
          simp only [List.getElem?_cons_succ]
          exact ⟨h4, h5⟩
      | [], hv => simp at hv
      | [a], hv => simp at hv; omega
  obtain ⟨h1, h2, h3⟩ := key (v.length / 2) v (by omega)
  exact ⟨h1, h2, h3⟩

/-- Interleaving `Evens` and `Odds` gives the vector back. -/
theorem C57_interleave (v e o : List Zr) (he : Vec.evens v = some e) (ho : Vec.odds v = some o) :
    (List.zipWith (fun a b => [a, b]) e o).flatten = v := by
  have hl : v.length % 2 = 0 := by
    by_contra h
    simp [Vec.evens, h] at he
  have he : Vec.everySecond v = e := by simpa [Vec.evens, hl] using he
  have ho : Vec.everySecond v.tail = o := by simpa [Vec.odds, hl] using ho
  subst he ho
  have key : ∀ (n : ℕ) (v : List Zr), v.length = 2 * n →
      (List.zipWith (fun a b => [a, b]) (Vec.everySecond v) (Vec.everySecond v.tail)).flatten = v := by
    intro n
    induction n with
    | zero =>
      intro v hv
      have : v = [] := List.eq_nil_of_length_eq_zero (by omega)
      subst this
      rfl
    | succ n ih =>
      intro v hv
      match v, hv with
      | [a, b], hv => simp [Vec.everySecond]
      | a :: b :: c :: t, hv =>
        have ht : (c :: t).length = 2 * n := by simp at hv ⊢; omega
        have := ih (c :: t) ht
        rw [List.tail_cons] at this
        rw [List.tail_cons]
        have e1 : Vec.everySecond (a :: b :: c :: t) = a :: Vec.everySecond (c :: t) := rfl
        have e2 : Vec.everySecond (b :: c :: t) = b :: Vec.everySecond t := rfl
        rw [e1, e2, List.zipWith_cons_cons, List.flatten_cons, this]
        rfl
      | [], hv => simp at hv
      | [a], hv => simp at hv; omega
  exact key (v.length / 2) v (by omega)

variable {M : Type} [AddCommGroup M] [Module Zr M]

/-- `G1v.Add`, `G2v.Add` and `G1v.HadamardProd`: entrywise sum, the result has the first vector's length; a
panic exactly when the second vector is shorter. -/
theorem C57_group_add (g k r : List M) :
    (Gv.add g k = some r ↔ g.length ≤ k.length ∧ Entrywise (fun a b => a + b) g k r) ∧
    Gv.hadamardProd g k = Gv.add g k := by
  refine ⟨?_, rfl⟩
  by_cases h : g.length ≤ k.length
  · rw [entrywise_iff _ _ _ _ h, Gv.add_eq h]; simp [h]
  · rw [Gv.add, if_pos (by omega)]; simp [h]

/-- `G1v.Neg`, `G1v.Mul`, `G2v.Mul`. -/
theorem C57_group_unary (g : List M) (x : Zr) :
    Gv.neg g = g.map (fun a => -a) ∧ Gv.mul g x = g.map (fun a => x • a) := by
  simp [Gv.neg, Gv.mul]

/-- `G1v.MulV` (with its shortcut for zero scalars): entrywise, exactly when the lengths agree. -/
theorem C57_mulV (g : List M) (v : List Zr) (r : List M) :
    Gv.mulV g v = some r ↔ g.length = v.length ∧ Entrywise (fun h x => x • h) g v r := by
  by_cases h : g.length = v.length
  · rw [entrywise_iff _ _ _ _ h.le, Gv.mulV_eq h, zipWith_swap_smul]; simp [h]
  · simp [Gv.mulV, h]

/-- `G2v.Mulv`: entrywise; a panic exactly when the scalars run out. -/
theorem C57_mulv2 (g : List M) (v : List Zr) (r : List M) :
    Gv.mulv2 g v = some r ↔ g.length ≤ v.length ∧ Entrywise (fun h x => x • h) g v r := by
  by_cases h : g.length ≤ v.length
  · rw [entrywise_iff _ _ _ _ h, Gv.mulv2_eq h, zipWith_swap_smul]; simp [h]
  · rw [Gv.mulv2, if_pos (by omega)]; simp [h]

/-- `G1v.Sum` (skipping points at infinity) and `G2v.Sum`: the sum, exactly for non-empty vectors. -/
theorem C57_group_sum [DecidableEq M] (g : List M) (r : M) :
    (Gv.sum g = some r ↔ g ≠ [] ∧ r = g.sum) ∧ (Gv.sum2 g = some r ↔ g ≠ [] ∧ r = g.sum) := by
  constructor
  · by_cases h : g = []
    · simp [h, Gv.sum_nil]
    · rw [Gv.sum_eq h]; simp [h, eq_comm]
  · cases g with
    | nil => simp [Gv.sum2]
    | cons a g => simp [Gv.sum2, foldl_add_eq_sum, eq_comm]

/-- `Duplicate`: `n` copies, exactly for one-element vectors. -/
theorem C57_duplicate (g : List M) (n : ℕ) (r : List M) :
    Gv.duplicate g n = some r ↔ g.length = 1 ∧ r.length = n ∧ ∀ a ∈ r, ∀ b ∈ g, a = b := by
  match g with
  | [] => simp [Gv.duplicate]
  | [x] =>
    simp only [Gv.duplicate, List.length_singleton, true_and, List.mem_singleton, forall_eq, Option.some.injEq]
    rw [eq_comm, List.eq_replicate_iff]
  | a :: b :: t => simp [Gv.duplicate]

/-- `G1v.InnerProd` is the sum (the code: product) of the pairings, exactly for non-empty vectors of the same
length. -/
theorem C57_pair_prod (E : Curve G1 G2 GT) (g : List G1) (k : List G2) (r : GT) :
    pairProd E g k = some r ↔ g.length = k.length ∧ g ≠ [] ∧
      r = ((List.range g.length).map fun i => E.pair (g.getD i 0) (k.getD i 0)).sum := by
  by_cases h : g.length = k.length
  swap
  · simp [pairProd, h]
  match g, k, h with
  | [], [], _ => simp [pairProd]
  | p :: ps, q :: qs, h =>
    have hl : ps.length = qs.length := by simpa using h
    have key : ∀ (ps : List G1) (qs : List G2), ps.length = qs.length →
        (List.zipWith (fun a b => E.pair a b) ps qs).sum
          = ((List.range ps.length).map fun i => E.pair (ps.getD i 0) (qs.getD i 0)).sum := by
      intro ps
      induction ps with
      | nil => intro qs _; simp
      | cons p ps ih =>
        intro qs hq
        cases qs with
        | nil => simp at hq
        | cons q qs =>
          rw [List.zipWith_cons_cons, List.sum_cons, ih qs (by simpa using hq), List.length_cons,
            List.range_succ_eq_map, List.map_cons, List.sum_cons, List.map_map]
          simp [Function.comp_def]
    rw [pairProd, if_neg (by simpa using h)]
    simp only [foldl_add_eq_sum, Option.some.injEq]
    rw [← key (p :: ps) (q :: qs) h]
    simp [hl, eq_comm]

/-- Examples: a mismatch panics, equal lengths do not; splitting a vector of length four. -/
example : Vec.add [1, 2] [3] = none ∧ Vec.add [1, 2] [3, 4] = some [1 + 3, 2 + 4] ∧
    Vec.evens [1, 2, 3, 4] = some [1, 3] ∧ Vec.odds [1, 2, 3, 4] = some [2, 4] ∧ Vec.evens [1, 2, 3] = none := by
  simp [Vec.add, Vec.evens, Vec.odds, Vec.everySecond]

end PoL.Props
