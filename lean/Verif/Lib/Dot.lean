import Mathlib.Algebra.Module.LinearMap.Defs
import Mathlib.Algebra.BigOperators.Group.List.Basic
import Mathlib.Algebra.BigOperators.Group.Finset.Basic
import Mathlib.Algebra.BigOperators.Intervals
import Mathlib.Algebra.BigOperators.Ring.Finset
import Mathlib.Algebra.Module.BigOperators
import Mathlib.Tactic.Ring
import Mathlib.Tactic.Module
import Mathlib.Tactic.Abel

/-!
# Inner products of lists

`dot v g = Σ_i v_i • g_i`, the specification of every multi-exponentiation and inner product of the code.
-/

namespace PoL

section
variable {F M N : Type*} [CommRing F] [AddCommGroup M] [Module F M] [AddCommGroup N] [Module F N]

/-- `Σ_i v_i • g_i` (over the common prefix of the two lists). -/
def dot (v : List F) (g : List M) : M := (List.zipWith (fun a h => a • h) v g).sum

@[simp] theorem dot_nil_left (g : List M) : dot ([] : List F) g = 0 := rfl
@[simp] theorem dot_nil_right (v : List F) : dot v ([] : List M) = 0 := by cases v <;> rfl
@[simp] theorem dot_cons (a : F) (v : List F) (h : M) (g : List M) :
    dot (a :: v) (h :: g) = a • h + dot v g := by simp [dot]

theorem dot_add_left : ∀ (v w : List F) (g : List M), v.length = w.length →
    dot (List.zipWith (· + ·) v w) g = dot v g + dot w g
  | [], [], g, _ => by simp
  | a :: v, b :: w, [], _ => by simp
  | a :: v, b :: w, h :: g, hl => by
    have := dot_add_left v w g (by simpa using hl)
    simp only [List.zipWith_cons_cons, dot_cons, this]
    module

theorem dot_add_right : ∀ (v : List F) (g k : List M), g.length = k.length →
    dot v (List.zipWith (· + ·) g k) = dot v g + dot v k
  | [], g, k, _ => by simp
  | a :: v, [], [], _ => by simp
  | a :: v, h :: g, k :: ks, hl => by
    have := dot_add_right v g ks (by simpa using hl)
    simp only [List.zipWith_cons_cons, dot_cons, this]
    module

theorem dot_mul_left (x : F) : ∀ (v : List F) (g : List M),
    dot (v.map fun a => a * x) g = x • dot v g
  | [], g => by simp
  | a :: v, [] => by simp
  | a :: v, h :: g => by
    have := dot_mul_left x v g
    simp only [List.map_cons, dot_cons, this]
    module

theorem dot_smul_right (x : F) : ∀ (v : List F) (g : List M),
    dot v (g.map fun h => x • h) = x • dot v g
  | [], g => by simp
  | a :: v, [] => by simp
  | a :: v, h :: g => by
    have := dot_smul_right x v g
    simp only [List.map_cons, dot_cons, this]
    module

theorem dot_neg_left : ∀ (v : List F) (g : List M), dot (v.map fun a => -a) g = - dot v g
  | [], g => by simp
  | a :: v, [] => by simp
  | a :: v, h :: g => by
    have := dot_neg_left v g
    simp only [List.map_cons, dot_cons, this]
    module

theorem dot_append : ∀ (v v' : List F) (g g' : List M), v.length = g.length →
    dot (v ++ v') (g ++ g') = dot v g + dot v' g'
  | [], v', [], g', _ => by simp
  | a :: v, v', h :: g, g', hl => by
    have := dot_append v v' g g' (by simpa using hl)
    simp only [List.cons_append, dot_cons, this, add_assoc]

theorem dot_take_drop (n : ℕ) : ∀ (v : List F) (g : List M),
    dot v g = dot (v.take n) (g.take n) + dot (v.drop n) (g.drop n) := by
  induction n with
  | zero => intro v g; simp
  | succ n ih =>
    intro v g
    cases v with
    | nil => simp
    | cons a v =>
      cases g with
      | nil => simp
      | cons h g => simp only [List.take_succ_cons, List.drop_succ_cons, dot_cons]; rw [ih v g, add_assoc]

/-- Only the common prefix of the two lists matters. -/
theorem dot_take_left : ∀ (v : List F) (g : List M), dot (v.take g.length) g = dot v g
  | [], g => by simp
  | a :: v, [] => by simp
  | a :: v, h :: g => by
    have := dot_take_left v g
    simp only [List.length_cons, List.take_succ_cons, dot_cons, this]

theorem dot_take_right : ∀ (v : List F) (g : List M), dot v (g.take v.length) = dot v g
  | [], g => by simp
  | a :: v, [] => by simp
  | a :: v, h :: g => by
    have := dot_take_right v g
    simp only [List.length_cons, List.take_succ_cons, dot_cons, this]

theorem dot_append_left_of_le : ∀ (v v' : List F) (g : List M), g.length ≤ v.length →
    dot (v ++ v') g = dot v g
  | v, v', [], _ => by simp
  | a :: v, v', h :: g, hl => by
    have := dot_append_left_of_le v v' g (by simpa using hl)
    simp only [List.cons_append, dot_cons, this]

theorem dot_comm : ∀ (v w : List F), dot v w = dot w v
  | [], w => by simp
  | a :: v, [] => by simp
  | a :: v, b :: w => by
    have := dot_comm v w
    simp only [dot_cons, smul_eq_mul, this, mul_comm]

theorem dot_map_linear (e : M →ₗ[F] N) : ∀ (v : List F) (g : List M),
    e (dot v g) = dot v (g.map e)
  | [], g => by simp
  | a :: v, [] => by simp
  | a :: v, h :: g => by
    have := dot_map_linear e v g
    simp only [List.map_cons, dot_cons, map_add, map_smul, this]

theorem dot_smul_const (m : M) : ∀ (v w : List F), dot v (w.map fun a => a • m) = dot v w • m
  | [], w => by simp
  | a :: v, [] => by simp
  | a :: v, b :: w => by
    have := dot_smul_const m v w
    simp only [List.map_cons, dot_cons, this, smul_eq_mul, add_smul, mul_smul]

/-- Moving an entrywise factor from the scalars to the group elements. -/
theorem dot_hadamard : ∀ (v w : List F) (g : List M),
    dot (List.zipWith (· * ·) v w) g = dot v (List.zipWith (fun a h => a • h) w g)
  | [], w, g => by simp
  | a :: v, [], g => by simp
  | a :: v, b :: w, [] => by simp
  | a :: v, b :: w, h :: g => by
    have := dot_hadamard v w g
    simp only [List.zipWith_cons_cons, dot_cons, this, mul_smul]

theorem dot_replicate_zero : ∀ (n : ℕ) (g : List M), dot (List.replicate n (0 : F)) g = 0
  | 0, g => by simp
  | n + 1, [] => by simp
  | n + 1, h :: g => by
    have := dot_replicate_zero n g
    simp only [List.replicate_succ, dot_cons, this, zero_smul, add_zero]

theorem dot_zero_right (v : List F) (n : ℕ) : dot v (List.replicate n (0 : M)) = 0 := by
  induction v generalizing n with
  | nil => simp
  | cons a v ih => cases n <;> simp [List.replicate_succ, ih]

theorem dot_replicate_one : ∀ (g : List M), dot (List.replicate g.length (1 : F)) g = g.sum
  | [] => by simp
  | h :: g => by
    have := dot_replicate_one g
    simp only [List.length_cons, List.replicate_succ, dot_cons, this, one_smul, List.sum_cons]

/-- `dot` as an indexed sum. -/
theorem dot_eq_sum_range (v : List F) (g : List M) (n : ℕ) (hv : v.length = n) (hg : g.length = n) :
    dot v g = ∑ i ∈ Finset.range n, v.getD i 0 • g.getD i 0 := by
  subst hv
  induction v generalizing g with
  | nil => simp
  | cons a v ih =>
    cases g with
    | nil => simp at hg
    | cons h g =>
      simp only [dot_cons, List.length_cons, Finset.sum_range_succ']
      rw [ih g (by simpa using hg)]
      simp [add_comm]

theorem dot_map_map_range (n : ℕ) (f : ℕ → F) (g : ℕ → M) :
    dot ((List.range n).map f) ((List.range n).map g) = ∑ i ∈ Finset.range n, f i • g i := by
  rw [dot_eq_sum_range _ _ n (by simp) (by simp)]
  refine Finset.sum_congr rfl fun i hi => ?_
  rw [Finset.mem_range] at hi
  simp [List.getD, hi]

end

theorem foldl_add_eq_sum {M : Type*} [AddCommMonoid M] (l : List M) (a : M) :
    l.foldl (· + ·) a = a + l.sum := by
  induction l generalizing a with
  | nil => simp
  | cons h t ih => simp [ih, add_assoc]

theorem foldl_mul_eq_prod {M : Type*} [CommMonoid M] (l : List M) (a : M) :
    l.foldl (· * ·) a = a * l.prod := by
  induction l generalizing a with
  | nil => simp
  | cons h t ih => simp [ih, mul_assoc]

/-- `mapM` in `Option` succeeds with `map` when every element does. -/
theorem mapM_some {α β : Type*} (f : α → Option β) (g : α → β) (l : List α)
    (h : ∀ x ∈ l, f x = some (g x)) : l.mapM f = some (l.map g) := by
  induction l with
  | nil => rfl
  | cons a t ih =>
    rw [List.mapM_cons, h a (by simp), ih fun x hx => h x (by simp [hx])]
    rfl

theorem mapM_length {α β : Type*} (f : α → Option β) (l : List α) (r : List β)
    (h : l.mapM f = some r) : r.length = l.length := by
  induction l generalizing r with
  | nil => simp at h; simp [← h]
  | cons a t ih =>
    rw [List.mapM_cons] at h
    simp only [Option.bind_eq_bind, Option.bind_eq_some_iff, Option.pure_def, Option.some.injEq] at h
    obtain ⟨b, -, r', hr', rfl⟩ := h
    simp [ih r' hr']

theorem mapM_getElem {α β : Type*} (f : α → Option β) (l : List α) (r : List β)
    (h : l.mapM f = some r) (i : ℕ) (a : α) (ha : l[i]? = some a) : f a = r[i]? := by
  induction l generalizing r i with
  | nil => simp at ha
  | cons b t ih =>
    rw [List.mapM_cons] at h
    simp only [Option.bind_eq_bind, Option.bind_eq_some_iff, Option.pure_def, Option.some.injEq] at h
    obtain ⟨b', hb', r', hr', rfl⟩ := h
    cases i with
    | zero => simp at ha; subst ha; simpa using hb'
    | succ i => simpa using ih r' hr' i (by simpa using ha)

end PoL
