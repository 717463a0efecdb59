import Verif.Proofs.WorkRange
import Verif.Props.Pointers
import Verif.Props.Range

/-!
# C121: how many points the provers make

Each multiplication of a point makes a point, so the number of points a call makes tells how long it takes.  The code skips
multiplications by 0.  `Commit` and `Open` therefore take longer the more entries are not zero.  A range proof works with the bits of
the numbers, and for each bit that it skips it does not skip the complement: the number of points depends on the numbers only through
what is left after masking.
-/

set_option linter.unusedSectionVars false

namespace PoL.Props

open Spec Ptr PoL.BP

variable {G1 G2 GT : Type} [AddCommGroup G1] [Module Zr G1] [AddCommGroup G2] [Module Zr G2] [AddCommGroup GT] [Module Zr GT]
  [DecidableEq G1] [DecidableEq GT]

theorem made_of_costs {C α : Type} {m : Run C α} {P : α → ℕ → Prop} (c : Costs m P) {h h' : Mem C} {a : α} (e : m h = some (a, h')) :
    P a (made h h') := by
  obtain ⟨n, hn, hP⟩ := c h a h' e
  rwa [made, hn, Nat.add_sub_cancel_left]

/-- **C121.** `Commit` makes one point for each entry that is not zero, and one for the result. -/
theorem C121_commit_counts (gl : Globals) (pp : PoL.PP Ref Ref Ref) (m : List Zr) {h h' : Mem (Cell G1 G2 GT)} {c : Ref}
    (run : Ptr.PP.commit gl pp m h = some (c, h')) : made h h' = nonZero m + 1 := by
  refine made_of_costs (P := fun _ n => n = nonZero m + 1) ?_ run
  unfold Ptr.PP.commit
  split
  · exact Costs.crash
  · refine Costs.lift fun _ _ => Costs.bind (costs_mulV _ _ _ _) ?_
    rintro _ _ ⟨rfl, -, -⟩
    exact (costs_sum _ _).imp (by rintro _ _ rfl; rfl)

theorem mapM_get {m es : List Zr} : ∀ {js : List ℕ}, (js.mapM fun j => m[j + 1 - 1]?) = some es → es = js.map fun j => m.getD j 0
  | [], e => by
    rw [List.mapM_nil] at e
    exact (Option.some.inj e).symm
  | j :: js, e => by
    rw [List.mapM_cons] at e
    simp only [Option.bind_eq_bind, Option.bind_eq_some_iff, Nat.add_sub_cancel] at e
    obtain ⟨x, hx, xs, hxs, e⟩ := e
    have := mapM_get (m := m) (es := xs) (js := js) (by simpa using hxs)
    rw [← Option.some.inj e, this, List.map_cons, List.getD_eq_getElem?_getD, hx]
    rfl

theorem nonZero_eraseIdx : ∀ (m : List Zr) (i : ℕ), i < m.length →
    (if m.getD i 0 = 0 then 0 else 1) + nonZero (m.eraseIdx i) = nonZero m
  | [], i, h => by simp at h
  | x :: m, 0, _ => by simp [nonZero]
  | x :: m, i + 1, h => by
    have := nonZero_eraseIdx m i (by simpa using h)
    simp only [List.getD_cons_succ, List.eraseIdx_cons_succ, nonZero]
    omega

theorem nonZero_others (m : List Zr) (i : ℕ) (hi : i < m.length) :
    nonZero (((List.range m.length).filter fun j => j + 1 ≠ i + 1).map fun j => m.getD j 0) = nonZero (m.eraseIdx i) := by
  have h1 : ((List.range m.length).filter fun j => j + 1 ≠ i + 1) = (List.range m.length).erase i := by
    rw [List.nodup_range.erase_eq_filter]
    refine List.filter_congr fun j _ => ?_
    by_cases hj : j = i <;> simp [hj]
  have h2 : (List.range m.length).map (fun j => m.getD j 0) = m := by
    refine List.ext_getElem (by simp) fun j hj hj' => ?_
    simp [hj']
  have h3 := List.sum_map_erase (f := fun j => if m.getD j 0 = 0 then 0 else 1) (List.mem_range.2 hi)
  have h4 := nonZero_eraseIdx m i hi
  have h5 : nonZero m = ((List.range m.length).map fun j => if m.getD j 0 = 0 then 0 else 1).sum := by
    conv_lhs => rw [← h2, nonZero_eq, List.map_map]
    rfl
  rw [h1, nonZero_eq, List.map_map]
  have h6 : ((List.range m.length).erase i).map ((fun x : Zr => if x = 0 then 0 else 1) ∘ fun j => m.getD j 0) =
      ((List.range m.length).erase i).map fun j => if m.getD j 0 = 0 then 0 else 1 := rfl
  rw [h6]
  omega

/-- **C121.** `Open` makes one point for each entry that is not zero, but for the one that is opened, and one for the result. -/
theorem C121_open_counts (gl : Globals) (pp : PoL.PP Ref Ref Ref) (i : ℕ) (m : List Zr) (hm : m.length = pp.N)
    {h h' : Mem (Cell G1 G2 GT)} {c : Zr × Ref} (run : Ptr.PP.openAt gl pp i m h = some (c, h')) :
    made h h' = nonZero (m.eraseIdx i) + 1 := by
  refine made_of_costs (P := fun _ n => n = nonZero (m.eraseIdx i) + 1) ?_ run
  unfold Ptr.PP.openAt
  split
  · exact Costs.crash
  · rename_i hi
    refine Costs.lift fun _ _ => Costs.lift fun es hes => Costs.bind (costs_mulV _ _ _ _) ?_
    rintro _ _ ⟨rfl, -, -⟩
    refine Costs.step (costs_sum _ _) fun _ => Costs.lift fun _ _ => Costs.pure ?_
    have : nonZero es = nonZero (m.eraseIdx i) := by
      rw [mapM_get hes, ← hm]
      exact nonZero_others m i (by omega)
    omega

/-- **C121.** `Update` makes two points, whatever the entries. -/
theorem C121_update_counts (pp : PoL.PP Ref Ref Ref) (C : Ref) (m : List Zr) (mi : Zr) (i : ℕ) {h h' : Mem (Cell G1 G2 GT)}
    (run : Ptr.PP.update pp C m mi i h = some ((), h')) : made h h' = 2 := by
  refine made_of_costs (P := fun _ n => n = 2) ?_ run
  refine Costs.lift fun _ _ => Costs.lift fun _ _ => Costs.step (costs_mulBy _ _ _) fun _ => Costs.step (costs_mulBy _ _ _) fun _ => ?_
  exact Costs.free (costs_subFrom _ _ _) fun _ => (costs_addTo _ _ _).imp (by rintro _ _ rfl; rfl)

/-- **C121.** The number of points made by `ProveRange` does not depend on the bits of the numbers: besides a number that depends
only on how many numbers there are, it counts the entries that are not zero in random vectors, in the powers of a challenge, and in
the vector of numbers masked with a random vector, and folded. -/
theorem C121_range_counts (E : Curve G1 G2 GT) (gl : Globals) (pp : RPPP Ref) (rnd : RangeRand) (V : Ref) (v : List Zr) (r : Zr)
    (hHs : pp.Hs.length = 64 * pp.Gs.length) (hne : pp.Gs ≠ []) {h h' : Mem (Cell G1 G2 GT)} {p : RangeProof Ref}
    (run : Ptr.BP.proveRange E gl pp rnd V v r h = some (p, h')) : ∃ x y xs, made h h' = rangeWork pp.Gs.length +
      (2 * nonZero rnd.w + nonZero rnd.s + nonZero rnd.t + nonZero (powerSeries (64 * pp.Gs.length) y⁻¹) +
        foldNonZero (pp.Gs.length / 2) (List.zipWith (fun a b => a + b * x) v rnd.w) xs) :=
  made_of_costs (Ptr.BP.costs_proveRange E gl pp rnd V v r hHs hne) run

theorem nonZero_le (v : List Zr) : nonZero v ≤ v.length := by
  induction v with
  | nil => exact le_rfl
  | cons x v ih =>
    rw [nonZero, List.length_cons]
    split <;> omega

theorem foldNonZero_le (xs : List Zr) : ∀ (n : ℕ) (v : List Zr), foldNonZero n v xs ≤ 3 * v.length := by
  induction xs with
  | nil => intro n v; exact Nat.zero_le _
  | cons x xs ih =>
    intro n v
    have h1 := ih (n / 2) (halve n v x)
    have h2 := nonZero_le (halve n v x)
    have h3 := nonZero_le (v.take n)
    have h4 := nonZero_le (v.drop n)
    rw [foldNonZero]
    simp only [halve, List.length_zipWith, List.length_take, List.length_drop] at *
    omega

/-- **C121.** For all numbers, commitments and random vectors, the number of points made by `ProveRange` is between two bounds that
depend only on how many numbers there are. -/
theorem C121_range_bounds (E : Curve G1 G2 GT) (gl : Globals) (pp : RPPP Ref) (rnd : RangeRand) (hr : rnd.WellFormed pp.Gs.length)
    (V : Ref) (v : List Zr) (r : Zr) (hHs : pp.Hs.length = 64 * pp.Gs.length) (hne : pp.Gs ≠ []) {h h' : Mem (Cell G1 G2 GT)}
    {p : RangeProof Ref} (run : Ptr.BP.proveRange E gl pp rnd V v r h = some (p, h')) :
    rangeWork pp.Gs.length ≤ made h h' ∧ made h h' ≤ rangeWork pp.Gs.length + 196 * pp.Gs.length := by
  obtain ⟨x, y, xs, e⟩ := C121_range_counts E gl pp rnd V v r hHs hne run
  have h1 := nonZero_le rnd.w
  have h2 := nonZero_le rnd.s
  have h3 := nonZero_le rnd.t
  have h4 := nonZero_le (powerSeries (64 * pp.Gs.length) y⁻¹)
  have h5 := foldNonZero_le xs (pp.Gs.length / 2) (List.zipWith (fun a b => a + b * x) v rnd.w)
  obtain ⟨h6, h7, h8⟩ := hr
  rw [powerSeries_length] at h4
  rw [List.length_zipWith] at h5
  omega

theorem agrees_some {C α β : Type} {m : Run C α} {h : Mem C} {b : β} {R : Mem C → α → β → Prop} (a : Agrees m h (some b) R) :
    ∃ x h', m h = some (x, h') ∧ Keeps h h' ∧ R h' x b := by
  unfold Agrees at a
  split at a
  · simp_all
  · rename_i x h' b' e1 e2
    rw [Option.some.injEq] at e2
    subst e2
    exact ⟨x, h', e1, a.1, a.2⟩
  · exact a.elim

/-- Parameters in memory: a toy curve, fan-out 3. -/
theorem toy_memory : ∃ (h : Mem (Cell Zr Zr Zr)) (gl : Globals) (p : Pol.PublicParams Ref Ref Ref) (q : Pol.PublicParams Zr Zr Zr) (L : ℕ),
    GlobalsAt toyCurve h gl ∧ PubAt h p q ∧ Fits toyCurve 2 3 L q := by
  obtain ⟨f, hf⟩ := (C30_supported_fanouts 3).2 ⟨2, by norm_num, by norm_num, by decide⟩
  obtain ⟨L, q, -, hq, hfit⟩ := C54_dense toyCurve 2 3 f hf (by decide)
  obtain ⟨gl, m₁, -, -, h1⟩ := agrees_some (wp_initGlobals (E := toyCurve) ⟨[], []⟩)
  have h2 := Pol.agrees_generatePublicParams h1 2 3 .dense
  rw [hq] at h2
  obtain ⟨a, m₂, -, hk, h3⟩ := agrees_some h2
  exact ⟨m₂, gl, a.2, q, L, h1.mono hk, h3.2, hfit⟩

/-- A `Commit` and an `Open` that return, and what they make: two entries are not zero, one of them is opened. -/
example : ∃ (h h' h'' : Mem (Cell Zr Zr Zr)) (gl : Globals) (p : Pol.PublicParams Ref Ref Ref) (c : Ref) (o : Zr × Ref),
    Ptr.PP.commit gl p.PPPP [4, 0, 0, 2, 0] h = some (c, h') ∧ made h h' = 3 ∧
      Ptr.PP.openAt gl p.PPPP 3 [4, 0, 0, 2, 0] h = some (o, h'') ∧ made h h'' = 2 := by
  obtain ⟨h, gl, p, q, L, hg, hp, hfit⟩ := toy_memory
  have n4 : (4 : Zr) ≠ 0 := by decide +kernel
  have n2 : (2 : Zr) ≠ 0 := by decide +kernel
  have hN : p.PPPP.N = 5 := by rw [hp.PPPP.N, hfit.PPPP]; rfl
  have h1 := Ptr.PP.agrees_commit hg hp.PPPP [4, 0, 0, 2, 0]
  rw [hfit.PPPP, PoL.PP.commit_eq_dot toyCurve 2 (3 + 2) _ rfl (by norm_num)] at h1
  obtain ⟨c, h', run, -, -⟩ := agrees_some h1
  have h2 := Ptr.PP.agrees_openAt hg hp.PPPP 3 [4, 0, 0, 2, 0]
  rw [hfit.PPPP, PoL.PP.openAt_eq toyCurve 2 (3 + 2) _ rfl (by norm_num) 3 (by norm_num)] at h2
  obtain ⟨o, h'', run', -, -⟩ := agrees_some h2
  refine ⟨h, h', h'', gl, p, c, o, run, ?_, run', ?_⟩
  · rw [C121_commit_counts gl p.PPPP _ run]
    simp [nonZero, n4, n2]
  · rw [C121_open_counts gl p.PPPP 3 _ (by rw [hN]; rfl) run']
    simp [nonZero, n4]

/-- Random values for a range proof of four numbers. -/
def toyRangeRand : RangeRand :=
  { w := [3, 4, 5, 6], rPrime := 5, ν := 6, η := 7, s := List.replicate 256 1, t := List.replicate 252 2, τ1 := 8, τ2 := 9 }

/-- A range proof that is returned, for four numbers, one of them the largest possible. -/
example : ∃ (h h' : Mem (Cell Zr Zr Zr)) (gl : Globals) (pp : RPPP Ref) (rnd : RangeRand) (V : Ref) (v : List Zr) (r : Zr)
    (p : RangeProof Ref), pp.Hs.length = 64 * pp.Gs.length ∧ pp.Gs.length = 4 ∧ rnd.WellFormed pp.Gs.length ∧ v ≠ [0, 0, 0, 0] ∧
      Ptr.BP.proveRange toyCurve gl pp rnd V v r h = some (p, h') := by
  obtain ⟨h, gl, p, q, L, hg, hp, hfit⟩ := toy_memory
  have hGs : q.RPPP.Gs.length = 4 := by
    rw [hfit.rp_Gs, hfit.PPPP, List.length_take, PoL.PP.new_G1s_length _ _ _ (by norm_num)]
    rfl
  have hr : ∀ x ∈ [((2 ^ 63 - 1 : ℕ) : Zr), 0, 5, 0], x.val < 2 ^ 63 := by
    intro x hx
    simp only [List.mem_cons, List.not_mem_nil, or_false] at hx
    rcases hx with rfl | rfl | rfl | rfl
    · rw [ZMod.val_natCast_of_lt (lt_of_lt_of_le (by norm_num) two_pow_63_lt_order.le)]; norm_num
    · simp
    · decide +kernel
    · simp
  obtain ⟨rp, ipaPP, -, hc⟩ := C16_range_proof_complete toyCurve toyCurve_lawful q.RPPP 2 (by norm_num) (by norm_num) hGs hfit.rp_Hs
    hfit.rp_Fs toyRangeRand
    ⟨rfl, List.length_replicate, List.length_replicate⟩ [((2 ^ 63 - 1 : ℕ) : Zr), 0, 5, 0] rfl hr 11 _ rfl
  obtain ⟨hc, -⟩ := hc (toy_rangeChallenges_ne _ _ _ _)
  obtain ⟨V, h₁, -, hk, hV⟩ := agrees_some (R := At kG1) (agrees_iff.2 ((wp_new kG1 h _).imp fun _ _ _ o => ⟨o.keeps, o.at_⟩))
  have := Ptr.BP.agrees_proveRange (hg.mono hk) (hp.RPPP.mono hk) toyRangeRand hV [((2 ^ 63 - 1 : ℕ) : Zr), 0, 5, 0] 11
  rw [hc] at this
  obtain ⟨pf, h₂, run, -, -⟩ := agrees_some this
  have e1 := hp.RPPP.Gs.length
  have e2 := hp.RPPP.Hs.length
  have e3 := hfit.rp_Hs
  exact ⟨h₁, h₂, gl, p.RPPP, _, V, _, 11, pf, by omega, by omega, 
    ⟨by rw [e1, hGs]; rfl, by rw [e1, hGs]; exact List.length_replicate, by rw [e1, hGs]; exact List.length_replicate⟩,
    by decide +kernel, run⟩

end PoL.Props
