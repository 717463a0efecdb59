import Verif.Props.TotalSums
import Verif.Props.Concurrent

/-!
# C136: the root and the total that are read while a `Set` is running
-/

set_option linter.unusedSectionVars false

namespace PoL.Props
open Spec BP PP Verkle Pol

variable {G1 G2 GT : Type} [AddCommGroup G1] [Module Zr G1] [AddCommGroup G2] [Module Zr G2]
  [AddCommGroup GT] [Module Zr GT] [DecidableEq G1] [DecidableEq GT]

/-- The value stored for the root is that from before until the last write of a `Set`. -/
theorem root_value_during {E : Curve G1 G2 GT} {env : Env} {α : Zr} {F L : ℕ}
    {ls ls1 ls2 : LiabilitySet G1 G2 GT} (h : NewSet E α F L ls) (hist : List (Str × ℤ)) (id : Str) (n : ℤ)
    (hids : ValidIds ls.tree.id2Path F L (hist ++ [(id, n)])) (h1 : ls.sets E env hist = some ls1)
    (h2 : ls.sets E env (hist ++ [(id, n)]) = some ls2) {l : List State}
    (hl : ls1.tree.crashStates E env id n ls1.s = some l) (k : ℕ) (hk : k ≤ L) :
    (l.getD k ls1.s).db [] = if k = L then ls2.s.db [] else ls1.s.db [] := by
  have hL := h.pp.depth
  obtain ⟨p, hp, hpL, -⟩ := hids (id, n) (by simp)
  obtain ⟨-, t1, s1, hp1, rfl⟩ := (sets_iff E env hist ls ls1).1 h1
  obtain ⟨-, t2, s2, hp2, rfl⟩ := (sets_iff E env _ ls ls2).1 h2
  rw [vputs_concat, hp1, Option.bind_some] at hp2
  obtain ⟨l', a1, a2, a3⟩ := crashStates_eq h.tree.root hp1 hp2 p hp
  dsimp only at hl ⊢
  rw [a1, Option.some.injEq] at hl
  subst hl
  obtain ⟨st, hst⟩ : ∃ st, l'[k]? = some st := ⟨_, List.getElem?_eq_getElem (by omega)⟩
  rw [List.getD_eq_getElem?_getD, hst, Option.getD_some]
  obtain ⟨b1, b2⟩ := a3 k st hst []
  split_ifs with hkL
  · exact b1 ⟨0, by omega, by omega, by simp [keyOf]⟩
  · refine b2 fun ⟨j, hj1, hj2, hj⟩ => ?_
    have := congrArg List.length (keyOf_injective (a₁ := []) hj)
    rw [List.length_take, List.length_nil] at this
    omega

/-- C136: `ProveTot`, called while a `Set` is running and has made `k` of its `L` database writes, returns what it would have
returned before the `Set` or, after the last write, what it returns after it. -/
theorem C136_total {E : Curve G1 G2 GT} {env : Env} {α : Zr} {F L : ℕ}
    {ls ls1 ls2 : LiabilitySet G1 G2 GT} (h : NewSet E α F L ls) (hist : List (Str × ℤ)) (id : Str) (n : ℤ)
    (hids : ValidIds ls.tree.id2Path F L (hist ++ [(id, n)])) (h1 : ls.sets E env hist = some ls1)
    (h2 : ls.sets E env (hist ++ [(id, n)]) = some ls2) {l : List State}
    (hl : ls1.tree.crashStates E env id n ls1.s = some l) (k : ℕ) (hk : k ≤ L) :
    ({ ls1 with s := l.getD k ls1.s } : LiabilitySet G1 G2 GT).proveTot E
      = if k = L then ls2.proveTot E else ls1.proveTot E := by
  have hr := root_value_during h hist id n hids h1 h2 hl k hk
  obtain ⟨-, t1, s1, -, rfl⟩ := (sets_iff E env hist ls ls1).1 h1
  obtain ⟨-, t2, s2, -, rfl⟩ := (sets_iff E env _ ls ls2).1 h2
  unfold LiabilitySet.proveTot
  dsimp only at hr ⊢
  rw [hr]
  split_ifs <;> rfl

/-- C136: the same for the first call of `Root`. -/
theorem C136_root {E : Curve G1 G2 GT} (hE : E.Lawful) {env : Env} (henv : env.Lawful) {α : Zr} {F L : ℕ}
    {ls ls1 ls2 : LiabilitySet G1 G2 GT} (h : NewSet E α F L ls) (hist : List (Str × ℤ)) (hne : hist ≠ []) (id : Str) (n : ℤ)
    (hids : ValidIds ls.tree.id2Path F L (hist ++ [(id, n)])) (h1 : ls.sets E env hist = some ls1)
    (h2 : ls.sets E env (hist ++ [(id, n)]) = some ls2) {l : List State}
    (hl : ls1.tree.crashStates E env id n ls1.s = some l) (k : ℕ) (hk : k ≤ L) :
    (({ ls1 with s := l.getD k ls1.s } : LiabilitySet G1 G2 GT).root E).map Prod.fst
      = if k = L then (ls2.root E).map Prod.fst else (ls1.root E).map Prod.fst := by
  have hL := h.pp.depth
  have hr := root_value_during h hist id n hids h1 h2 hl k hk
  have hids1 : ValidIds ls.tree.id2Path F L hist := fun e he => hids e (by simp [he])
  obtain ⟨x1, hx1, e1⟩ := C46_first_call_partial hE henv h hist hne hids1 h1
  obtain ⟨x2, hx2, e2⟩ := C46_first_call_partial hE henv h _ (by simp) hids h2
  rw [e1, e2]
  obtain ⟨-, t1, s1, hp1, rfl⟩ := (sets_iff E env hist ls ls1).1 h1
  obtain ⟨v, -, hv, hd, -⟩ := root_data hE henv h.tree (by omega) hist hne hids1 hp1
  have hmem := h.memRoot
  dsimp only at hr hx1 hx2 ⊢
  split_ifs at hr ⊢ with hkL
  · rw [root_eq (x := x2) (by exact hv) hd (by rw [if_neg (by simp [hmem])]; dsimp only; rw [hr]; exact hx2)]
    rfl
  · rw [root_eq (x := x1) (by exact hv) hd (by rw [if_neg (by simp [hmem])]; dsimp only; rw [hr]; exact hx1)]
    rfl

/-- C136, partial: what `Root` returns after `k₁` writes and `ProveTot` after `k₂` fit together, and the total is exact for the
amounts before or after the `Set`, if the last write does not come between the two reads. -/
theorem C136_fit_partial {E : Curve G1 G2 GT} (hE : E.Lawful) {env : Env} (henv : env.Lawful) {α : Zr} {F L : ℕ}
    {ls ls1 ls2 : LiabilitySet G1 G2 GT} (h : NewSet E α F L ls) (hist : List (Str × ℤ)) (hne : hist ≠ []) (id : Str) (n : ℤ)
    (hids : ValidIds ls.tree.id2Path F L (hist ++ [(id, n)])) (h1 : ls.sets E env hist = some ls1)
    (h2 : ls.sets E env (hist ++ [(id, n)]) = some ls2) (ht1 : totalAmount (byPath ls.tree.id2Path hist) < 2 ^ 63)
    (ht2 : totalAmount (byPath ls.tree.id2Path (hist ++ [(id, n)])) < 2 ^ 63) {l : List State}
    (hl : ls1.tree.crashStates E env id n ls1.s = some l) (k₁ k₂ : ℕ) (hk₁ : k₁ ≤ L) (hk₂ : k₂ ≤ L) (hk : k₁ = L ↔ k₂ = L) :
    ∃ tp V W, ({ ls1 with s := l.getD k₂ ls1.s } : LiabilitySet G1 G2 GT).proveTot E = some tp ∧
      (({ ls1 with s := l.getD k₁ ls1.s } : LiabilitySet G1 G2 GT).root E).map Prod.fst = some (some (V, W)) ∧
      tp.sum = (if k₂ = L then totalAmount (byPath ls.tree.id2Path (hist ++ [(id, n)]))
        else totalAmount (byPath ls.tree.id2Path hist)) ∧
      tp.verify E ls.pp V = some true := by
  have hids1 : ValidIds ls.tree.id2Path F L hist := fun e he => hids e (by simp [he])
  rw [C136_total h hist id n hids h1 h2 hl k₂ hk₂, C136_root hE henv h hist hne id n hids h1 h2 hl k₁ hk₁]
  obtain ⟨x1, hx1, e1⟩ := C46_first_call_partial hE henv h hist hne hids1 h1
  obtain ⟨x2, hx2, e2⟩ := C46_first_call_partial hE henv h _ (by simp) hids h2
  by_cases hkL : k₂ = L
  · rw [if_pos hkL, if_pos (hk.2 hkL), if_pos hkL]
    obtain ⟨tp, y, o1, o2, o3, o4⟩ := C44_total_proof hE henv h _ (by simp) hids h2 ht2
    rw [hx2, Option.some.injEq] at o3
    subst o3
    exact ⟨tp, x2.V, x2.W, o1, by rw [e2]; rfl, o2, o4⟩
  · rw [if_neg hkL, if_neg (fun hc => hkL (hk.1 hc)), if_neg hkL]
    obtain ⟨tp, y, o1, o2, o3, o4⟩ := C44_total_proof hE henv h hist hne hids1 h1 ht1
    rw [hx1, Option.some.injEq] at o3
    subst o3
    exact ⟨tp, x1.V, x1.W, o1, by rw [e1]; rfl, o2, o4⟩

/-- C136 is violated: if the last write comes between the two reads, root and total are both returned and the proof is refused,
whichever of the two was read first. -/
theorem C136_violated {E : Curve G1 G2 GT} (hE : E.Lawful) (hnd : E.NonDegenerate) (hg : E.genG1 ≠ 0) {env : Env}
    (henv : env.Lawful) {α : Zr} {F L : ℕ} {ls ls1 ls2 : LiabilitySet G1 G2 GT} (h : NewSet E α F L ls) (hist : List (Str × ℤ))
    (hne : hist ≠ []) (id : Str) (n : ℤ) (hids : ValidIds ls.tree.id2Path F L (hist ++ [(id, n)]))
    (h1 : ls.sets E env hist = some ls1) (h2 : ls.sets E env (hist ++ [(id, n)]) = some ls2)
    (ht1 : totalAmount (byPath ls.tree.id2Path hist) < 2 ^ 63)
    (ht2 : totalAmount (byPath ls.tree.id2Path (hist ++ [(id, n)])) < 2 ^ 63) {l : List State}
    (hl : ls1.tree.crashStates E env id n ls1.s = some l) (a : ℕ) (q : List ℕ)
    (hp : ls.tree.id2Path id = some (a :: q)) (hα : α ^ (a + 1) + α ^ (F + 1) ≠ 0)
    (hn : intToZr n ≠ intToZr (latest (byPath ls.tree.id2Path hist) (a :: q)))
    (k₁ k₂ : ℕ) (hk₁ : k₁ ≤ L) (hk₂ : k₂ ≤ L) (hk : ¬ (k₁ = L ↔ k₂ = L)) :
    ∃ tp V W, ({ ls1 with s := l.getD k₂ ls1.s } : LiabilitySet G1 G2 GT).proveTot E = some tp ∧
      (({ ls1 with s := l.getD k₁ ls1.s } : LiabilitySet G1 G2 GT).root E).map Prod.fst = some (some (V, W)) ∧
      tp.verify E ls.pp V = some false := by
  have hids1 : ValidIds ls.tree.id2Path F L hist := fun e he => hids e (by simp [he])
  have h3 : ls1.set E env id n = some ls2 := by
    have := h2
    rw [sets_append, h1] at this
    unfold LiabilitySet.sets at this
    simpa using this
  rw [C136_total h hist id n hids h1 h2 hl k₂ hk₂, C136_root hE henv h hist hne id n hids h1 h2 hl k₁ hk₁]
  obtain ⟨x1, hx1, e1⟩ := C46_first_call_partial hE henv h hist hne hids1 h1
  obtain ⟨x2, hx2, e2⟩ := C46_first_call_partial hE henv h _ (by simp) hids h2
  obtain ⟨y1, y2, new, f1, f2, f3, -, -, f6, f7⟩ := C132_out_of_date_partial hE hnd hg henv h hist hne id n hids h1 h3 a q hp hα hn ht2
  obtain ⟨old, y, o1, -, o3, o4⟩ := C44_total_proof hE henv h hist hne hids1 h1 ht1
  rw [hx1, Option.some.injEq] at f1 o3
  rw [hx2, Option.some.injEq] at f2
  subst f1 f2 o3
  by_cases hkL : k₂ = L
  · rw [if_pos hkL, if_neg (fun hc => hk ⟨fun _ => hkL, fun _ => hc⟩)]
    exact ⟨new, x1.V, x1.W, f3, by rw [e1]; rfl, f6⟩
  · have hk1 : k₁ = L := by
      by_contra hc
      exact hk ⟨fun h => absurd h hc, fun h => absurd h hkL⟩
    rw [if_neg hkL, if_pos hk1]
    exact ⟨old, x2.V, x2.W, o1, by rw [e2]; rfl, f7 old o4⟩

/-! ## The hypotheses can be met -/

/-- The amount 7 is set to 9.  `Root` is called after two of the three writes: with `ProveTot` called after one its result fits, with
`ProveTot` called after all three it does not. -/
example : ∃ (ls1 : LiabilitySet Zr Zr Zr) (pp : PublicParams Zr Zr Zr) (l : List State) (old new : TotalProof Zr) (V V' : Zr)
    (W W' : Option Zr), ls1.tree.crashStates toyCurve toyEnv ['2', '2', '1'] 9 ls1.s = some l ∧
    ({ ls1 with s := l.getD 1 ls1.s } : LiabilitySet Zr Zr Zr).proveTot toyCurve = some old ∧ old.sum = 42 ∧
    (({ ls1 with s := l.getD 2 ls1.s } : LiabilitySet Zr Zr Zr).root toyCurve).map Prod.fst = some (some (V, W)) ∧
    old.verify toyCurve pp V = some true ∧
    ({ ls1 with s := l.getD 3 ls1.s } : LiabilitySet Zr Zr Zr).proveTot toyCurve = some new ∧
    (({ ls1 with s := l.getD 2 ls1.s } : LiabilitySet Zr Zr Zr).root toyCurve).map Prod.fst = some (some (V', W')) ∧
    new.verify toyCurve pp V' = some false := by
  obtain ⟨ls, ls1, ls2, ls3, ls3', -, x, W, h, ht, hids, h1, -, -, -, -, h3, -, -⟩ := toy_stale
  have h7 : latest (byPath ls.tree.id2Path toyHist) [2, 2, 1] = 7 := by rw [ht]; decide
  have h42 : totalAmount (byPath ls.tree.id2Path toyHist) = 42 := by rw [ht]; decide
  have h44 : totalAmount (byPath ls.tree.id2Path (toyHist ++ [(['2', '2', '1'], 9)])) = 44 := by rw [ht]; decide
  have h2 : ls.sets toyCurve toyEnv (toyHist ++ [(['2', '2', '1'], 9)]) = some ls3' := by
    rw [sets_append, h1]
    unfold LiabilitySet.sets
    simpa using h3
  have hl : ∃ l, ls1.tree.crashStates toyCurve toyEnv ['2', '2', '1'] 9 ls1.s = some l := by
    obtain ⟨-, t1, s1, hp1, rfl⟩ := (sets_iff toyCurve toyEnv toyHist ls ls1).1 h1
    obtain ⟨-, t2, s2, hp2, -⟩ := (sets_iff toyCurve toyEnv _ ls ls3').1 h2
    rw [vputs_concat, hp1, Option.bind_some] at hp2
    obtain ⟨l, a1, -⟩ := crashStates_eq h.tree.root hp1 hp2 [2, 2, 1] (by rw [ht]; rfl)
    exact ⟨l, a1⟩
  obtain ⟨l, hl⟩ := hl
  obtain ⟨old, V, W, a1, a2, a3, a4⟩ := C136_fit_partial toyCurve_lawful toyEnv_lawful h toyHist (by decide) ['2', '2', '1'] 9 hids h1 h2
    (by rw [h42]; norm_num) (by rw [h44]; norm_num) hl 2 1 (by norm_num) (by norm_num) (by norm_num)
  obtain ⟨new, V', W', b1, b2, b3⟩ := C136_violated toyCurve_lawful toyCurve_nonDegenerate (by decide +kernel) toyEnv_lawful h toyHist
    (by decide) ['2', '2', '1'] 9 hids h1 h2 (by rw [h42]; norm_num) (by rw [h44]; norm_num) hl 2 [2, 1] (by rw [ht]; rfl)
    (by decide +kernel) (by rw [h7]; decide +kernel) 2 3 (by norm_num) (by norm_num) (by norm_num)
  rw [if_neg (by norm_num), h42] at a3
  exact ⟨ls1, ls.pp, l, old, new, V, V', W, W', hl, a1, a3, a2, a4, b1, b2, b3⟩

end PoL.Props
