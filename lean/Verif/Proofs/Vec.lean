import Verif.Lib.Dot
import Verif.Model.InnerProd
import Mathlib.Tactic.LinearCombination
import Mathlib.Tactic.FieldSimp
import Mathlib.Tactic.NormNum
import Mathlib.Tactic.Positivity

/-!
# What the vector operations compute when they do not panic (helper lemmas)
-/

set_option linter.unusedSectionVars false

namespace PoL

theorem obind_step {α β : Type} {x : Option α} {a : α} {f : α → Option β} {r : Option β} (h : x = some a)
    (h2 : f a = r) : (x >>= f) = r := by
  subst h; exact h2

theorem obind_elim {α β : Type} {x : Option α} {f : α → Option β} {r : β} (h : (x >>= f) = some r) :
    ∃ a, x = some a ∧ f a = some r := Option.bind_eq_some_iff.1 h

variable {G1 G2 GT : Type} [AddCommGroup G1] [Module Zr G1] [AddCommGroup G2] [Module Zr G2]
  [AddCommGroup GT] [Module Zr GT]
variable {M : Type} [AddCommGroup M] [Module Zr M]

theorem zipWith_swap_smul (g : List M) (v : List Zr) :
    List.zipWith (fun h x => x • h) g v = List.zipWith (fun x h => x • h) v g := by
  rw [List.zipWith_comm]

theorem negZr_eq (x : Zr) : negZr x = -x := by simp [negZr]

theorem intToZr_zero : intToZr 0 = 0 := by simp [intToZr]
theorem intToZr_one : intToZr 1 = 1 := by simp [intToZr]

namespace Gv

theorem mulV_eq {g : List M} {v : List Zr} (h : g.length = v.length) :
    mulV g v = some (List.zipWith (fun x h => x • h) v g) := by
  have hf : (fun (h : M) (x : Zr) => if x = 0 then 0 else x • h) = fun h x => x • h := by
    funext h x
    split
    · next h0 => rw [h0, zero_smul]
    · rfl
  rw [mulV, if_neg (by simpa using h), hf, zipWith_swap_smul]

theorem mulV_eq_none {g : List M} {v : List Zr} (h : g.length ≠ v.length) : mulV g v = none := by
  rw [mulV, if_pos h]

theorem mulv2_eq {g : List M} {v : List Zr} (h : g.length ≤ v.length) :
    mulv2 g v = some (List.zipWith (fun x h => x • h) v g) := by
  rw [mulv2, if_neg (by omega), zipWith_swap_smul]

theorem sum_eq [DecidableEq M] {l : List M} (h : l ≠ []) : sum l = some l.sum := by
  cases l with
  | nil => exact absurd rfl h
  | cons g0 gs =>
    have hf : (fun (acc g : M) => if g = 0 then acc else acc + g) = (· + ·) := by
      funext acc g
      split
      · next h0 => rw [h0, add_zero]
      · rfl
    simp only [sum, hf, foldl_add_eq_sum, List.sum_cons]

theorem sum_nil [DecidableEq M] : sum ([] : List M) = none := rfl

/-- The code's `MulV(v).Sum()`. -/
theorem sum_zipWith [DecidableEq M] {g : List M} {v : List Zr} (h : g.length = v.length)
    (hne : g ≠ []) : sum (List.zipWith (fun x h => x • h) v g) = some (dot v g) := by
  rw [sum_eq]
  · rfl
  · intro hc
    have := congrArg List.length hc
    simp only [List.length_zipWith, List.length_nil] at this
    apply hne
    apply List.eq_nil_of_length_eq_zero
    omega

theorem mulV_sum [DecidableEq M] {g : List M} {v : List Zr} (h : g.length = v.length)
    (hne : g ≠ []) : (mulV g v >>= fun l => sum l) = some (dot v g) := by
  rw [mulV_eq h]; exact sum_zipWith h hne

theorem add_eq {g k : List M} (h : g.length ≤ k.length) :
    add g k = some (List.zipWith (· + ·) g k) := by rw [add, if_neg (by omega)]

theorem hadamardProd_eq {g k : List M} (h : g.length ≤ k.length) :
    hadamardProd g k = some (List.zipWith (· + ·) g k) := by rw [hadamardProd, if_neg (by omega)]

@[simp] theorem mul_length (g : List M) (x : Zr) : (mul g x).length = g.length := by simp [mul]

end Gv

namespace Vec

theorem add_eq {v w : List Zr} (h : v.length = w.length) :
    add v w = some (List.zipWith (· + ·) v w) := by rw [add, if_neg (by simpa using h)]

theorem sub_eq {v w : List Zr} (h : v.length = w.length) :
    sub v w = some (List.zipWith (· - ·) v w) := by
  rw [sub, if_neg (by simpa using h)]
  simp only [negZr_eq, sub_eq_add_neg]

theorem hadamardProd_eq {v w : List Zr} (h : v.length = w.length) :
    hadamardProd v w = some (List.zipWith (· * ·) v w) := by rw [hadamardProd, if_neg (by simpa using h)]

theorem innerProd_eq {v w : List Zr} (h : v.length = w.length) :
    innerProd v w = some (dot v w) := by
  rw [innerProd, if_neg (by simpa using h), foldl_add_eq_sum, zero_add]; rfl

theorem innerProd_eq_none {v w : List Zr} (h : v.length ≠ w.length) : innerProd v w = none := by
  rw [innerProd, if_pos h]

theorem exp_eq {v : List Zr} {g : List G1} (h : v.length = g.length) (hne : g ≠ []) :
    exp v g = some (dot v g) := by
  unfold exp
  rw [if_neg (by simpa using h)]
  cases v with
  | nil => cases g with
    | nil => exact absurd rfl hne
    | cons => simp at h
  | cons v0 vs => cases g with
    | nil => simp at h
    | cons g0 gs => simp only [foldl_add_eq_sum, dot_cons]; rfl

@[simp] theorem mul_length (v : List Zr) (x : Zr) : (mul v x).length = v.length := by simp [mul]

theorem dot_mul (v : List Zr) (x : Zr) (g : List M) : dot (mul v x) g = x • dot v g :=
  dot_mul_left x v g

end Vec

theorem dot_gvmul (v : List Zr) (g : List M) (x : Zr) : dot v (Gv.mul g x) = x • dot v g :=
  dot_smul_right x v g

theorem sliceTo_eq {α : Type} {l : List α} {n : ℕ} (h : n ≤ l.length) :
    sliceTo l n = some (l.take n) := by rw [sliceTo, if_pos h]

theorem sliceFrom_eq {α : Type} {l : List α} {n : ℕ} (h : n ≤ l.length) :
    sliceFrom l n = some (l.drop n) := by rw [sliceFrom, if_pos h]

theorem pairProd_singleton (E : Curve G1 G2 GT) (p : G1) (q : G2) :
    pairProd E [p] [q] = some (E.pair p q) := by simp [pairProd]

theorem pairProd_eq (E : Curve G1 G2 GT) {ps : List G1} {qs : List G2} (h : ps.length = qs.length)
    (hne : ps ≠ []) : pairProd E ps qs = some (List.zipWith (fun a b => E.pair a b) ps qs).sum := by
  unfold pairProd
  rw [if_neg (by simpa using h)]
  cases ps with
  | nil => exact absurd rfl hne
  | cons p ps => cases qs with
    | nil => simp at h
    | cons q qs => simp only [foldl_add_eq_sum, List.zipWith_cons_cons, List.sum_cons]

/-- Challenges derived from a 32-byte digest always exist. -/
theorem fieldElementFromBytes_isSome {b : Bytes} (h : b.length = 32) :
    ∃ x, fieldElementFromBytes b = some x := by
  unfold fieldElementFromBytes feFrom256Bits
  rw [if_neg (by simpa using h)]
  exact ⟨_, rfl⟩

end PoL
