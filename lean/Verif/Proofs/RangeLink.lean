import Verif.Spec.RangeTranscripts
import Verif.Proofs.Range
import Verif.Proofs.RangeExtract

/-!
# The range verifier's quantities in closed form
-/

set_option linter.unusedSectionVars false

namespace PoL.BP

open Finset

variable {G1 G2 GT : Type} [AddCommGroup G1] [Module Zr G1] [AddCommGroup G2] [Module Zr G2]
  [AddCommGroup GT] [Module Zr GT] [DecidableEq G1]

theorem rangeD_range (m : ℕ) (hm : 0 < m) (f : ℕ → Zr) : ∀ n, rangeD m ((List.range n).map f)
    = (List.range (n * m)).map fun i => 2 ^ (i % m) * f (i / m)
  | 0 => by simp [rangeD]
  | n + 1 => by
    have ih := rangeD_range m hm f n
    rw [List.range_succ, List.map_append, Nat.succ_mul, List.range_add, List.map_append, ← ih]
    simp only [rangeD, List.flatMap_append, List.map_cons, List.map_nil, List.flatMap_cons, List.flatMap_nil,
      List.append_nil, List.map_map]
    congr 1
    apply List.map_congr_left
    intro j hj
    have := List.mem_range.1 hj
    have h1 : (n * m + j) % m = j := by rw [Nat.mul_add_mod_self_right, Nat.mod_eq_of_lt this]
    have h2 : (n * m + j) / m = n := by
      rw [Nat.add_comm, Nat.add_mul_div_right _ _ hm, Nat.div_eq_of_lt this, Nat.zero_add]
    simp only [Function.comp, h1, h2, pow2]

theorem rangeWeights_eq (n : ℕ) (r : List Zr) (x : Zr) :
    rangeD 63 ((List.range n).map (bitMonomial r)) ++ Vec.mul ((List.range n).map (bitMonomial r)) x
      = (List.range (n * 64)).map (rangeWeight n r x) := by
  rw [rangeD_range 63 (by norm_num), show n * 64 = n * 63 + n by ring, List.range_add, List.map_append]
  congr 1
  · apply List.map_congr_left
    intro i hi
    rw [rangeWeight, if_pos (List.mem_range.1 hi)]
  · simp only [Vec.mul, List.map_map]
    apply List.map_congr_left
    intro i hi
    simp only [Function.comp, rangeWeight]
    rw [if_neg (by omega), Nat.add_sub_cancel_left, mul_comm]

theorem map_getD_range {A : Type} (l : List A) (a : A) (n : ℕ) (h : l.length = n) :
    (List.range n).map (fun i => l.getD i a) = l := by
  apply List.ext_getElem (by simp [h])
  intro i h1 h2
  simp [List.getD_eq_getElem?_getD, h2]

theorem primed_eq (y : Zr) (Fs : List G1) (n : ℕ) (h : Fs.length = n) :
    List.zipWith (fun x h => x • h) (powerSeries Fs.length y) Fs
      = (List.range n).map fun i => y ^ i • Fs.getD i 0 := by
  apply List.ext_getElem (by simp [h])
  intro i h1 h2
  have : i < Fs.length := by simpa using h1
  simp [powerSeries_eq, List.getD_eq_getElem?_getD, this]

theorem dot_const (y : Zr) (g : List G1) (N : ℕ) (h : N ≤ g.length) :
    dot (Vec.mul (List.replicate N 1) y) (g.take N) = ∑ i ∈ range N, y • g.getD i 0 := by
  have e1 : Vec.mul (List.replicate N 1) y = (List.range N).map fun _ => y := by
    simp [Vec.mul, List.map_replicate, List.map_const', List.length_range]
  have e2 : g.take N = (List.range N).map fun i => g.getD i 0 := by
    apply List.ext_getElem (by simp [h])
    intro i h1 h2
    have : i < g.length := by simp at h1; omega
    simp [List.getD_eq_getElem?_getD, this]
  rw [e1, e2, dot_map_map_range]

end PoL.BP
