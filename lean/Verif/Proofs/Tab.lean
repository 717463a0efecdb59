import Verif.Proofs.Range

/-!
# Lists given by a function on `0..m-1`
-/

set_option linter.unusedSectionVars false

namespace PoL

variable {G1 G2 GT : Type} [AddCommGroup G1] [Module Zr G1] [AddCommGroup G2] [Module Zr G2]
  [AddCommGroup GT] [Module Zr GT]

/-- The list `f 0, …, f (m-1)`. -/
def tab {α : Type} (m : ℕ) (f : ℕ → α) : List α := (List.range m).map f

@[simp] theorem tab_length {α : Type} (m : ℕ) (f : ℕ → α) : (tab m f).length = m := by simp [tab]

theorem tab_getElem? {α : Type} {m k : ℕ} (f : ℕ → α) (h : k < m) : (tab m f)[k]? = some (f k) := by
  simp [tab, h]

theorem tab_getD {α : Type} {m k : ℕ} (f : ℕ → α) (h : k < m) (d : α) : (tab m f).getD k d = f k := by
  rw [List.getD_eq_getElem?_getD, tab_getElem? f h]; rfl

theorem eq_tab {α : Type} (l : List α) (d : α) {m : ℕ} (h : l.length = m) : l = tab m fun k => l.getD k d := by
  apply List.ext_getElem (by simp [h])
  intro i h1 h2
  simp [tab, List.getD_eq_getElem?_getD, List.getElem?_eq_getElem h1]

theorem tab_congr {α : Type} {m : ℕ} {f g : ℕ → α} (h : ∀ k < m, f k = g k) : tab m f = tab m g :=
  List.map_congr_left fun k hk => h k (List.mem_range.1 hk)

theorem zipWith_tab {α β γ : Type} (m : ℕ) (F : α → β → γ) (f : ℕ → α) (g : ℕ → β) :
    List.zipWith F (tab m f) (tab m g) = tab m fun k => F (f k) (g k) := by
  apply List.ext_getElem (by simp)
  intro i h1 h2
  simp [tab]

theorem map_tab {α β : Type} (m : ℕ) (F : α → β) (f : ℕ → α) : (tab m f).map F = tab m fun k => F (f k) := by
  simp [tab]

theorem mapM_tab {α : Type} {m : ℕ} {F : ℕ → Option α} (f : ℕ → α) (h : ∀ k < m, F k = some (f k)) :
    (List.range m).mapM F = some (tab m f) :=
  mapM_some F f _ fun k hk => h k (List.mem_range.1 hk)

theorem sum_tab {M : Type} [AddCommMonoid M] (m : ℕ) (f : ℕ → M) : (tab m f).sum = ∑ k ∈ Finset.range m, f k := by
  induction m with
  | zero => simp [tab]
  | succ m ih => rw [Finset.sum_range_succ, ← ih]; simp [tab, List.range_succ]

theorem dot_tab {M : Type} [AddCommGroup M] [Module Zr M] (m : ℕ) (f : ℕ → Zr) (g : ℕ → M) :
    dot (tab m f) (tab m g) = ∑ k ∈ Finset.range m, f k • g k := dot_map_map_range m f g

theorem tab_ne_nil {α : Type} {m : ℕ} (f : ℕ → α) (h : 0 < m) : tab m f ≠ [] := by
  intro hc
  have := congrArg List.length hc
  simp at this; omega

section
variable {M : Type} [AddCommGroup M] [Module Zr M]

theorem Gv.add_tab (m : ℕ) (f g : ℕ → M) : Gv.add (tab m f) (tab m g) = some (tab m fun k => f k + g k) := by
  rw [Gv.add_eq (by simp), zipWith_tab]

theorem Gv.mul_tab (m : ℕ) (f : ℕ → M) (x : Zr) : Gv.mul (tab m f) x = tab m fun k => x • f k := map_tab m _ f

theorem Gv.mulV_tab (m : ℕ) (f : ℕ → M) (t : ℕ → Zr) :
    Gv.mulV (tab m f) (tab m t) = some (tab m fun k => t k • f k) := by
  rw [Gv.mulV_eq (by simp), zipWith_tab]

theorem Gv.sum_tab [DecidableEq M] {m : ℕ} (hm : 0 < m) (f : ℕ → M) :
    Gv.sum (tab m f) = some (∑ k ∈ Finset.range m, f k) := by
  rw [Gv.sum_eq (tab_ne_nil f hm), PoL.sum_tab]
end

theorem Vec.add_tab (m : ℕ) (f g : ℕ → Zr) : Vec.add (tab m f) (tab m g) = some (tab m fun k => f k + g k) := by
  rw [Vec.add_eq (by simp), zipWith_tab]

theorem Vec.mul_tab (m : ℕ) (f : ℕ → Zr) (x : Zr) : Vec.mul (tab m f) x = tab m fun k => f k * x := map_tab m _ f

theorem Vec.innerProd_tab (m : ℕ) (f g : ℕ → Zr) :
    Vec.innerProd (tab m f) (tab m g) = some (∑ k ∈ Finset.range m, f k * g k) := by
  rw [Vec.innerProd_eq (by simp), dot_tab]; rfl

theorem everySecond_getElem? {α : Type} : ∀ (l : List α) (k : ℕ), (Vec.everySecond l)[k]? = l[2 * k]?
  | [], k => by simp [Vec.everySecond]
  | [x], 0 => by simp [Vec.everySecond]
  | [x], k + 1 => by simp [Vec.everySecond]
  | x :: y :: t, 0 => by simp [Vec.everySecond]
  | x :: y :: t, k + 1 => by
    rw [Vec.everySecond, List.getElem?_cons_succ, everySecond_getElem? t k,
      show 2 * (k + 1) = 2 * k + 1 + 1 by ring, List.getElem?_cons_succ, List.getElem?_cons_succ]

theorem everySecond_length {α : Type} : ∀ l : List α, (Vec.everySecond l).length = (l.length + 1) / 2
  | [] => by simp [Vec.everySecond]
  | [x] => by simp [Vec.everySecond]
  | x :: y :: t => by
    rw [Vec.everySecond, List.length_cons, everySecond_length t]
    simp only [List.length_cons]; omega

theorem Vec.evens_tab {ts : List Zr} {m : ℕ} (h : ts.length = 2 * m) :
    Vec.evens ts = some (tab m fun k => ts.getD (2 * k) 0) := by
  rw [Vec.evens, if_neg (by omega), eq_tab (Vec.everySecond ts) 0 (m := m) (by rw [everySecond_length]; omega)]
  congr 1
  exact tab_congr fun k _ => by rw [List.getD_eq_getElem?_getD, everySecond_getElem?, List.getD_eq_getElem?_getD]

theorem Vec.odds_tab {ts : List Zr} {m : ℕ} (h : ts.length = 2 * m) :
    Vec.odds ts = some (tab m fun k => ts.getD (2 * k + 1) 0) := by
  rw [Vec.odds, if_neg (by omega),
    eq_tab (Vec.everySecond ts.tail) 0 (m := m) (by rw [everySecond_length, List.length_tail]; omega)]
  congr 1
  exact tab_congr fun k _ => by
    rw [List.getD_eq_getElem?_getD, everySecond_getElem?, List.getD_eq_getElem?_getD, List.getElem?_tail]

/-- A product of pairings with multiples of the generator of `G2`. -/
theorem pairProd_tab (E : Curve G1 G2 GT) {m : ℕ} (hm : 0 < m) (A : ℕ → G1) (s : ℕ → Zr) :
    pairProd E (tab m A) (tab m fun k => s k • E.genG2)
      = some (E.pair (∑ k ∈ Finset.range m, s k • A k) E.genG2) := by
  rw [pairProd_eq E (by simp) (tab_ne_nil A hm), zipWith_tab, sum_tab]
  congr 1
  simp [map_sum, LinearMap.sum_apply]

end PoL
