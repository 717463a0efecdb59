import Verif.Proofs.PolHist

/-! The root of a liability set. -/

set_option linter.unusedSectionVars false

namespace PoL.Pol
open Spec BP PP Verkle

variable {G1 G2 GT : Type} [AddCommGroup G1] [Module Zr G1] [AddCommGroup G2] [Module Zr G2]
  [AddCommGroup GT] [Module Zr GT] [DecidableEq G1] [DecidableEq GT]

theorem expo_map_range (α : Zr) (f : ℕ → Zr) (F : ℕ) (a b : Zr) :
    expo α ((List.range F).map f ++ [a] ++ [b])
      = ∑ j ∈ Finset.range F, f j * α ^ (j + 1) + a * α ^ (F + 1) + b * α ^ (F + 2) := by
  unfold expo
  have hl : ((List.range F).map f ++ [a] ++ [b]).length = F + 1 + 1 := by simp
  rw [hl, Finset.sum_range_succ, Finset.sum_range_succ]
  congr 1
  · congr 1
    · apply Finset.sum_congr rfl
      intro j hj
      rw [Finset.mem_range] at hj
      congr 1
      rw [List.getD_eq_getElem?_getD, List.getElem?_append_left (by simp; omega),
        List.getElem?_append_left (by simpa using hj), List.getElem?_map, List.getElem?_range hj]
      rfl
    · congr 1
      rw [List.getD_eq_getElem?_getD, List.getElem?_append_left (by simp), List.getElem?_append_right (by simp)]
      simp
  · congr 1
    rw [List.getD_eq_getElem?_getD, List.getElem?_append_right (by simp)]
    simp

/-- After a non-empty history the root of the underlying tree has the empty key. -/
theorem root_data {E : Curve G1 G2 GT} (hE : E.Lawful) {env : Env} (henv : env.Lawful) {α : Zr} {F : ℕ}
    {t t' : Tree G1 G2 GT} (ht : NewTree E α F t) {L : ℕ} (hL : 1 ≤ L) (hist : List (Str × ℤ)) (hne : hist ≠ [])
    {s s' : State} (hids : ValidIds t.id2Path F L hist) (h : t.puts E env hist s = some (t', s')) :
    ∃ v x, t'.root = some v ∧ v.data = some (.key []) ∧ load E s'.db [] = some x := by
  obtain ⟨t1, s1, h1, -, -, hgood, -⟩ := puts_good hE henv α F ht.bound.le t ht.pp ht.fanOut ht.root L hL hist s hids
  rw [h, Option.some.injEq, Prod.mk.injEq] at h1
  obtain ⟨rfl, rfl⟩ := h1
  obtain ⟨v, hv, hg⟩ := hgood hne
  obtain ⟨m, rfl⟩ : ∃ m, L = m + 1 := ⟨L - 1, by omega⟩
  obtain ⟨x, hx, -⟩ := hg.stored
  exact ⟨v, x, hv, hg.2.1, hx⟩

theorem root_eq {E : Curve G1 G2 GT} {ls : LiabilitySet G1 G2 GT} {v : Sparse.Vertex Data} (hv : ls.tree.root = some v)
    (hd : v.data = some (.key [])) (x : Verkle.Vertex G1)
    (hx : Verkle.Vertex.fromBytes E (if ls.memRoot.length ≠ 0 then ls.memRoot else ls.s.db []) = some x) :
    ls.root E = some (some (x.V, x.W),
      { ls with memRoot := if ls.memRoot.length ≠ 0 then ls.memRoot else ls.s.db [] }) := by
  unfold LiabilitySet.root
  rw [hv]
  dsimp only
  refine obind_step hd (obind_step (show Data.str (.key []) = some [] from rfl) ?_)
  unfold memGet
  by_cases hm : ls.memRoot.length = 0
  · rw [if_neg (by simpa using hm)] at hx ⊢
    rw [if_neg (by simpa using hm)]
    exact obind_step hx rfl
  · rw [if_pos hm] at hx ⊢
    rw [if_pos ⟨rfl, hm⟩]
    exact obind_step hx rfl

theorem amounts_single {id2Path : Str → Option (List ℕ)} {id : Str} {i : ℕ} {rest : List ℕ}
    (hp : id2Path id = some (i :: rest)) (n : ℤ) (h : List (Str × ℤ)) (hh : h = [(id, n)] ∨ ∃ a, h = [(id, a), (id, n)]) :
    totalAmount (byPath id2Path h) = n ∧ ∀ j, amountBelow (byPath id2Path h) [j] = if j = i then n else 0 := by
  have hset : ((byPath id2Path h).map Prod.fst).toFinset = {i :: rest} := by
    rcases hh with rfl | ⟨a, rfl⟩ <;> simp [byPath, hp]
  have hl : latest (byPath id2Path h) (i :: rest) = n := by
    rcases hh with rfl | ⟨a, rfl⟩ <;> simp [byPath, hp, latest, lastPut]
  constructor
  · unfold totalAmount
    rw [hset, Finset.sum_singleton, hl]
  · intro j
    unfold amountBelow
    rw [hset, Finset.filter_singleton]
    by_cases hj : j = i
    · subst hj
      simp [hl]
    · simp [hj]

end PoL.Pol
