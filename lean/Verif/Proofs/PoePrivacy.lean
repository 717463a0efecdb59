import Verif.Proofs.Poe
import Verif.Proofs.Mask

/-!
# What the output of the equality proofs depends on
-/

set_option linter.unusedSectionVars false

namespace PoL.Poe

open BP

variable {G1 G2 GT : Type} [AddCommGroup G1] [Module Zr G1] [AddCommGroup G2] [Module Zr G2]
  [AddCommGroup GT] [Module Zr GT] [DecidableEq G1] [DecidableEq GT]

theorem finite_eqsRand (m : ℕ) : Finite {rnd : EqsRand // rnd.uην.length = m} :=
  have := finite_lists (A := Zr × Zr × Zr) m
  Finite.of_injective
    (fun r => ((⟨r.1.uην, r.2⟩, r.1.r1, r.1.r2) : {l : List (Zr × Zr × Zr) // l.length = m} × Zr × Zr)) fun a b h => by
    obtain ⟨⟨w, r, s⟩, ha⟩ := a
    obtain ⟨⟨w', r', s'⟩, hb⟩ := b
    simpa using h

/-- The random values of one pair. -/
def EqsRand.u (rnd : EqsRand) (k : ℕ) : Zr := (rnd.uην.getD k (0, 0, 0)).1
def EqsRand.η (rnd : EqsRand) (k : ℕ) : Zr := (rnd.uην.getD k (0, 0, 0)).2.1
def EqsRand.ν (rnd : EqsRand) (k : ℕ) : Zr := (rnd.uην.getD k (0, 0, 0)).2.2

/-- Entry `idx k` of vector `k`. -/
def entry (vs : List (List Zr)) (idx : List ℕ) (k : ℕ) : Zr := (vs.getD k []).getD (idx.getD k 0) 0

/-- What the batch prover sends first. -/
def vaggr (E : Curve G1 G2 GT) (e : Equalities G1 G2 GT) (α : Zr) (N m : ℕ) (rnd : EqsRand) : List G1 :=
  tab m fun k => (rnd.u k * α ^ (e.I.getD k 0 + 1) + rnd.ν k * α ^ N) • E.genG1
def waggr (E : Curve G1 G2 GT) (e : Equalities G1 G2 GT) (α : Zr) (N m : ℕ) (rnd : EqsRand) : List G1 :=
  tab m fun k => (rnd.u k * α ^ (e.J.getD k 0 + 1) + rnd.η k * α ^ N) • E.genG1

/-- The rest of the proof: a function of what was sent before, the challenges, and the masked entries `a`. -/
def finish (E : Curve G1 G2 GT) (e : Equalities G1 G2 GT) (α : Zr) (N m : ℕ) (x : Zr) (ts a : List Zr) (ρ : Zr)
    (Va Wa : List G1) (U V : G1) : Option (AggregatedProof G1) := do
  let q ← ipaParams E e.PP
  let b := tab m fun k => ts.getD (2 * k) 0 + ts.getD (2 * k + 1) 0
  let ipa ← newInnerProdArgument q a b
  let π ← { ipa with P := ρ • e.PP.F + x • U + V + dot b e.PP.H }.prove E
  return { IPP := π, ρ := ρ, V := V, U := U, Vaggr := Va, Waggr := Wa, c := π.C
           Ω := (∑ k ∈ Finset.range m, ts.getD (2 * k) 0 • (α ^ (N - e.I.getD k 0) • (e.V.getD k 0 + x • Va.getD k 0)
                - (a.getD k 0 * α ^ (N + 1)) • E.genG1))
              + ∑ k ∈ Finset.range m, ts.getD (2 * k + 1) 0 • (α ^ (N - e.J.getD k 0) • (e.W.getD k 0 + x • Wa.getD k 0)
                - (a.getD k 0 * α ^ (N + 1)) • E.genG1) }

theorem prove_eq_finish (E : Curve G1 G2 GT) (e : Equalities G1 G2 GT) (α : Zr) (N m : ℕ) (hm : 0 < m)
    (hN : 2 ≤ N) (hvc : e.PP.vc = PP.newPublicParams E α N)
    (hG : e.PP.G.length = m) (hH : e.PP.H.length = m)
    (hRO : ∀ gs is d n, ∃ l, e.RO gs is d n = some l ∧ l.length = n)
    (vs ws : List (List Zr)) (hvs : vs.length = m) (hws : ws.length = m) (hvl : ∀ v ∈ vs, v.length = N)
    (hwl : ∀ w ∈ ws, w.length = N) (hV : e.V = vs.map fun v => PP.expo α v • E.genG1)
    (hW : e.W = ws.map fun w => PP.expo α w • E.genG1)
    (hI : e.I.length = m) (hJ : e.J.length = m) (hIlt : ∀ i ∈ e.I, i + 1 < N) (hJlt : ∀ i ∈ e.J, i + 1 < N)
    (heq : ∀ k < m, entry vs e.I k = entry ws e.J k) (rnd : EqsRand) (hrnd : rnd.uην.length = m) :
    ∃ x ts, e.RO (vaggr E e α N m rnd ++ waggr E e α N m rnd ++ e.V ++ e.W) [] e.PP.digest 1 = some [x] ∧
      e.RO (vaggr E e α N m rnd ++ waggr E e α N m rnd ++ e.V ++ e.W ++ [rnd.r1 • e.PP.F + dot (tab m rnd.u) e.PP.G]
        ++ [rnd.r2 • e.PP.F + dot (tab m (entry vs e.I)) e.PP.G]) [] e.PP.digest (2 * m) = some ts ∧
      e.prove E rnd vs ws = finish E e α N m x ts (tab m fun k => rnd.u k * x + entry vs e.I k) (negZr (rnd.r1 * x + rnd.r2))
        (vaggr E e α N m rnd) (waggr E e α N m rnd) (rnd.r1 • e.PP.F + dot (tab m rnd.u) e.PP.G)
        (rnd.r2 • e.PP.F + dot (tab m (entry vs e.I)) e.PP.G) := by
  have hVl : e.V.length = m := by simp [hV, hvs]
  have hWl : e.W.length = m := by simp [hW, hws]
  have getmem : ∀ {β : Type} (l : List β) (d : β) (k : ℕ), l.length = m → k < m → l[k]? = some (l.getD k d) ∧ l.getD k d ∈ l := by
    intro β l d k hl hk
    rw [List.getD_eq_getElem?_getD, List.getElem?_eq_getElem (by omega : k < l.length)]
    exact ⟨rfl, List.getElem_mem _⟩
  obtain ⟨v, hv⟩ : ∃ v : ℕ → List Zr, v = fun k => vs.getD k [] := ⟨_, rfl⟩
  obtain ⟨w, hw⟩ : ∃ w : ℕ → List Zr, w = fun k => ws.getD k [] := ⟨_, rfl⟩
  obtain ⟨I, hIf⟩ : ∃ I : ℕ → ℕ, I = fun k => e.I.getD k 0 := ⟨_, rfl⟩
  obtain ⟨J, hJf⟩ : ∃ J : ℕ → ℕ, J = fun k => e.J.getD k 0 := ⟨_, rfl⟩
  have vlen : ∀ k < m, (v k).length = N := fun k hk => by rw [hv]; exact hvl _ (getmem vs [] k hvs hk).2
  have wlen : ∀ k < m, (w k).length = N := fun k hk => by rw [hw]; exact hwl _ (getmem ws [] k hws hk).2
  have ilt : ∀ k < m, I k + 1 < N := fun k hk => by rw [hIf]; exact hIlt _ (getmem e.I 0 k hI hk).2
  have jlt : ∀ k < m, J k + 1 < N := fun k hk => by rw [hJf]; exact hJlt _ (getmem e.J 0 k hJ hk).2
  obtain ⟨steps, hsteps⟩ : ∃ steps, steps = fun k : ℕ =>
      ((rnd.u k * α ^ (I k + 1) + rnd.ν k * α ^ N) • E.genG1, (rnd.u k * α ^ (J k + 1) + rnd.η k * α ^ N) • E.genG1,
        (rnd.ν k * α ^ (2 * N - I k)) • E.genG1, (rnd.η k * α ^ (2 * N - J k)) • E.genG1,
        PP.openExpo α N (I k) (v k) • E.genG1, PP.openExpo α N (J k) (w k) • E.genG1) := ⟨_, rfl⟩
  have q1 : vs[0]? = some (v 0) := by rw [hv]; exact (getmem vs [] 0 hvs hm).1
  have q2 : ((List.range m).mapM fun k => do
      let (u, η, ν) ← rnd.uην[k]?
      proveStep e.PP.vc (v 0).length u η ν (← e.I[k]?) (← e.J[k]?) (← vs[k]?) (← ws[k]?)) = some (tab m steps) := by
    apply mapM_tab
    intro k hk
    refine obind_step (getmem rnd.uην (0, 0, 0) k hrnd hk).1 (obind_step (getmem e.I 0 k hI hk).1
      (obind_step (getmem e.J 0 k hJ hk).1 (obind_step (getmem vs [] k hvs hk).1 (obind_step (getmem ws [] k hws hk).1 ?_))))
    rw [vlen 0 hm, hvc]
    have := proveStep_eq E α N (rnd.u k) (rnd.η k) (rnd.ν k) (I k) (J k) (ilt k hk) (jlt k hk) (v k) (w k) (vlen k hk) (wlen k hk)
    rw [hsteps]
    rw [hIf, hJf, hv, hw] at this ⊢
    exact this
  have q3 : ((rnd.uην.take m).map fun t => t.1) = tab m rnd.u := by
    rw [List.take_of_length_le (by omega), eq_tab rnd.uην (0, 0, 0) hrnd, map_tab]; rfl
  obtain ⟨Va, hVa⟩ : ∃ Va, Va = tab m fun k => (steps k).1 := ⟨_, rfl⟩
  obtain ⟨Wa, hWa⟩ : ∃ Wa, Wa = tab m fun k => (steps k).2.1 := ⟨_, rfl⟩
  have eVa : vaggr E e α N m rnd = Va := by rw [hVa, hsteps, hIf]; rfl
  have eWa : waggr E e α N m rnd = Wa := by rw [hWa, hsteps, hJf]; rfl
  rw [eVa, eWa]
  obtain ⟨lx, hlx, llx⟩ := hRO (Va ++ Wa ++ e.V ++ e.W) [] e.PP.digest 1
  obtain ⟨x, rfl⟩ := List.length_eq_one_iff.1 llx
  obtain ⟨vi, hvi⟩ : ∃ vi : ℕ → Zr, vi = entry vs e.I := ⟨_, rfl⟩
  rw [← hvi]
  have q4 : ((List.range m).mapM fun i => do (← vs[i]?)[← e.I[i]?]?) = some (tab m vi) := by
    apply mapM_tab
    intro k hk
    refine obind_step (getmem vs [] k hvs hk).1 (obind_step (getmem e.I 0 k hI hk).1 ?_)
    have h1 := vlen k hk
    have h2 := ilt k hk
    rw [hv, hIf] at *
    rw [hvi]
    dsimp only [entry] at *
    rw [List.getD_eq_getElem?_getD (l := vs.getD k []), List.getElem?_eq_getElem (by omega)]
    rfl
  obtain ⟨q5, q6⟩ := gv_mulV_sum hG (v := tab m rnd.u) (by simp) hm
  obtain ⟨q7, q8⟩ := gv_mulV_sum hG (v := tab m vi) (by simp) hm
  obtain ⟨U, hU⟩ : ∃ U, U = rnd.r1 • e.PP.F + dot (tab m rnd.u) e.PP.G := ⟨_, rfl⟩
  obtain ⟨V, hVV⟩ : ∃ V, V = rnd.r2 • e.PP.F + dot (tab m vi) e.PP.G := ⟨_, rfl⟩
  rw [← hU, ← hVV]
  obtain ⟨ts, hts, htl⟩ := hRO (Va ++ Wa ++ e.V ++ e.W ++ [U] ++ [V]) [] e.PP.digest (2 * m)
  obtain ⟨t0, ht0⟩ : ∃ t0 : ℕ → Zr, t0 = fun k => ts.getD (2 * k) 0 := ⟨_, rfl⟩
  obtain ⟨t1, ht1⟩ : ∃ t1 : ℕ → Zr, t1 = fun k => ts.getD (2 * k + 1) 0 := ⟨_, rfl⟩
  have ev : Vec.evens ts = some (tab m t0) := by rw [ht0]; exact Vec.evens_tab htl
  have od : Vec.odds ts = some (tab m t1) := by rw [ht1]; exact Vec.odds_tab htl
  have r1 : Gv.add (tab m fun k => (steps k).2.2.2.2.1) (Gv.mul (tab m fun k => (steps k).2.2.1) x)
      = some (tab m fun k => (steps k).2.2.2.2.1 + x • (steps k).2.2.1) := by rw [Gv.mul_tab, Gv.add_tab]
  have r2 : Gv.add (tab m fun k => (steps k).2.2.2.2.2) (Gv.mul (tab m fun k => (steps k).2.2.2.1) x)
      = some (tab m fun k => (steps k).2.2.2.2.2 + x • (steps k).2.2.2.1) := by rw [Gv.mul_tab, Gv.add_tab]
  have r3 := Gv.mulV_tab m (fun k => (steps k).2.2.2.2.1 + x • (steps k).2.2.1) t0
  have r4 := Gv.mulV_tab m (fun k => (steps k).2.2.2.2.2 + x • (steps k).2.2.2.1) t1
  have r5 := Gv.sum_tab hm (fun k => t0 k • ((steps k).2.2.2.2.1 + x • (steps k).2.2.1))
  have r6 := Gv.sum_tab hm (fun k => t1 k • ((steps k).2.2.2.2.2 + x • (steps k).2.2.2.1))
  obtain ⟨a, ha⟩ : ∃ a, a = tab m fun k => rnd.u k * x + vi k := ⟨_, rfl⟩
  have pw : ∀ i, i + 1 < N → α ^ (N - i) * α ^ (i + 1) = α ^ (N + 1) ∧ α ^ (N - i) * α ^ N = α ^ (2 * N - i) := by
    intro i hi
    rw [← pow_add, ← pow_add]
    exact ⟨by congr 1; omega, by congr 1; omega⟩
  have s5 : (∑ k ∈ Finset.range m, t0 k • ((steps k).2.2.2.2.1 + x • (steps k).2.2.1))
      = ∑ k ∈ Finset.range m, t0 k • (α ^ (N - e.I.getD k 0) • (e.V.getD k 0 + x • Va.getD k 0)
                - (a.getD k 0 * α ^ (N + 1)) • E.genG1) := by
    refine Finset.sum_congr rfl fun k hk => ?_
    have hk := Finset.mem_range.1 hk
    have c1 : e.V.getD k 0 = PP.expo α (v k) • E.genG1 := by
      rw [hV, hv, List.getD_eq_getElem?_getD, List.getElem?_map, (getmem vs [] k hvs hk).1]; rfl
    have o1 := PP.openExpo_add α N (I k) (v k) (vlen k hk) (by have := ilt k hk; omega)
    obtain ⟨w1, w2⟩ := pw (I k) (ilt k hk)
    rw [c1, hVa, tab_getD _ hk, ha, tab_getD _ hk, hsteps, hvi]
    have eI : e.I.getD k 0 = I k := by rw [hIf]
    have ee : entry vs e.I k = (v k).getD (I k) 0 := by rw [hv, hIf]; rfl
    rw [eI, ee]
    dsimp only
    congr 1
    simp only [smul_smul, ← add_smul, ← sub_smul]
    congr 1
    linear_combination o1 - x * rnd.u k * w1 - x * rnd.ν k * w2
  have s6 : (∑ k ∈ Finset.range m, t1 k • ((steps k).2.2.2.2.2 + x • (steps k).2.2.2.1))
      = ∑ k ∈ Finset.range m, t1 k • (α ^ (N - e.J.getD k 0) • (e.W.getD k 0 + x • Wa.getD k 0)
                - (a.getD k 0 * α ^ (N + 1)) • E.genG1) := by
    refine Finset.sum_congr rfl fun k hk => ?_
    have hk := Finset.mem_range.1 hk
    have c2 : e.W.getD k 0 = PP.expo α (w k) • E.genG1 := by
      rw [hW, hw, List.getD_eq_getElem?_getD, List.getElem?_map, (getmem ws [] k hws hk).1]; rfl
    have o2 := PP.openExpo_add α N (J k) (w k) (wlen k hk) (by have := jlt k hk; omega)
    obtain ⟨w3, w4⟩ := pw (J k) (jlt k hk)
    rw [c2, hWa, tab_getD _ hk, ha, tab_getD _ hk, hsteps, hvi, heq k hk]
    have eJ : e.J.getD k 0 = J k := by rw [hJf]
    have ee : entry ws e.J k = (w k).getD (J k) 0 := by rw [hw, hJf]; rfl
    rw [eJ, ee]
    dsimp only
    congr 1
    simp only [smul_smul, ← add_smul, ← sub_smul]
    congr 1
    linear_combination o2 - x * rnd.u k * w3 - x * rnd.η k * w4
  have r7 : Vec.add (Vec.mul (tab m rnd.u) x) (tab m vi) = some a := by
    rw [Vec.mul_tab, Vec.add_tab, ha]
  have r8 := Vec.add_tab m t0 t1
  obtain ⟨h1, h2⟩ := gv_mulV_sum hH (v := tab m fun k => t0 k + t1 k) (by simp) hm
  obtain ⟨q, hq, hqG, hqH⟩ := ipaParams_eq E e.PP (by omega)
  refine ⟨x, ts, hlx, hts, ?_⟩
  rw [← ha]
  unfold Equalities.prove
  dsimp only
  rw [if_neg (by omega), if_neg (by omega), if_neg (by omega)]
  refine obind_step q1 ?_
  rw [hVl]
  refine obind_step q2 ?_
  rw [q3]
  simp only [map_tab]
  rw [← hVa, ← hWa]
  refine obind_step hlx (obind_step (a := x) rfl (obind_step q4 (obind_step q5 (obind_step q6 (obind_step q7 (obind_step q8 ?_))))))
  rw [← hU, ← hVV]
  refine obind_step hts (obind_step r1 (obind_step ev (obind_step r3 (obind_step r5 (obind_step r2 (obind_step od
    (obind_step r4 (obind_step r6 ?_))))))))
  refine obind_step r7 (obind_step ev (obind_step od (obind_step r8 (obind_step h1 (obind_step h2 (obind_step hq ?_))))))
  rw [s5, s6]
  unfold finish
  refine ((obind_step hq ?_).symm)
  rw [ht0, ht1]

/-- One direction of the matching. -/
theorem prove_switch (E : Curve G1 G2 GT) (e : Equalities G1 G2 GT) (α : Zr) (hα : α ≠ 0) (N m : ℕ) (hm : 0 < m)
    (hN : 2 ≤ N) (hvc : e.PP.vc = PP.newPublicParams E α N)
    (hG : e.PP.G.length = m) (hH : e.PP.H.length = m) (hcyc : PrimeOrder G1) (hF : e.PP.F ≠ 0)
    (hRO : ∀ gs is d n, ∃ l, e.RO gs is d n = some l ∧ l.length = n)
    (vs ws vs' ws' : List (List Zr)) (hvs : vs.length = m) (hws : ws.length = m) (hvs' : vs'.length = m) (hws' : ws'.length = m)
    (hvl : ∀ v ∈ vs, v.length = N) (hwl : ∀ w ∈ ws, w.length = N)
    (hvl' : ∀ v ∈ vs', v.length = N) (hwl' : ∀ w ∈ ws', w.length = N)
    (hV : e.V = vs.map fun v => PP.expo α v • E.genG1) (hW : e.W = ws.map fun w => PP.expo α w • E.genG1)
    (hV' : e.V = vs'.map fun v => PP.expo α v • E.genG1) (hW' : e.W = ws'.map fun w => PP.expo α w • E.genG1)
    (hI : e.I.length = m) (hJ : e.J.length = m) (hIlt : ∀ i ∈ e.I, i + 1 < N) (hJlt : ∀ i ∈ e.J, i + 1 < N)
    (heq : ∀ k < m, entry vs e.I k = entry ws e.J k) (heq' : ∀ k < m, entry vs' e.I k = entry ws' e.J k)
    (p : AggregatedProof G1) (x : Zr) (hx : e.RO (p.Vaggr ++ p.Waggr ++ e.V ++ e.W) [] e.PP.digest 1 = some [x])
    (hx0 : x ≠ 0) (a : EqsRand) (ha : a.uην.length = m) (h : e.prove E a vs ws = some p) :
    ∃ b : EqsRand, b.uην.length = m ∧ e.prove E b vs' ws' = some p ∧
      ∀ k < m, a.u k * x + entry vs e.I k = b.u k * x + entry vs' e.I k := by
  obtain ⟨x', ts, h1, h2, h3⟩ := prove_eq_finish E e α N m hm hN hvc hG hH hRO vs ws hvs hws hvl hwl hV hW hI hJ hIlt hJlt
    heq a ha
  have hp : p.Vaggr = vaggr E e α N m a ∧ p.Waggr = waggr E e α N m a := by
    rw [h3] at h
    unfold finish at h
    obtain ⟨q, -, h⟩ := obind_elim h
    obtain ⟨ipa, -, h⟩ := obind_elim h
    obtain ⟨π, -, h⟩ := obind_elim h
    rw [Option.pure_def, Option.some_inj] at h
    rw [← h]; exact ⟨rfl, rfl⟩
  obtain rfl : x = x' := by
    rw [hp.1, hp.2, h1] at hx
    simpa using hx.symm
  obtain ⟨d, hd⟩ : ∃ d : ℕ → Zr, d = fun k => x⁻¹ * (entry vs e.I k - entry vs' e.I k) := ⟨_, rfl⟩
  obtain ⟨c, hc⟩ := hcyc e.PP.F hF (dot (tab m (entry vs e.I)) e.PP.G - dot (tab m (entry vs' e.I)) e.PP.G)
  obtain ⟨b, hb⟩ : ∃ b : EqsRand, b = ⟨tab m fun k => (a.u k + d k, a.η k - d k * α ^ (e.J.getD k 0 + 1) * (α ^ N)⁻¹,
      a.ν k - d k * α ^ (e.I.getD k 0 + 1) * (α ^ N)⁻¹), a.r1 - x⁻¹ * c, a.r2 + c⟩ := ⟨_, rfl⟩
  have bl : b.uην.length = m := by rw [hb]; simp
  have bu : ∀ k < m, b.u k = a.u k + d k := fun k hk => by rw [EqsRand.u, hb, tab_getD _ hk]
  have bη : ∀ k < m, b.η k = a.η k - d k * α ^ (e.J.getD k 0 + 1) * (α ^ N)⁻¹ := fun k hk => by
    rw [EqsRand.η, hb, tab_getD _ hk]
  have bν : ∀ k < m, b.ν k = a.ν k - d k * α ^ (e.I.getD k 0 + 1) * (α ^ N)⁻¹ := fun k hk => by
    rw [EqsRand.ν, hb, tab_getD _ hk]
  have br1 : b.r1 = a.r1 - x⁻¹ * c := by rw [hb]
  have br2 : b.r2 = a.r2 + c := by rw [hb]
  have hαN : α ^ N ≠ 0 := pow_ne_zero _ hα
  have masked : ∀ k < m, a.u k * x + entry vs e.I k = b.u k * x + entry vs' e.I k := by
    intro k hk
    rw [bu k hk, hd]
    field_simp
    ring
  have eV : vaggr E e α N m b = vaggr E e α N m a := by
    refine tab_congr fun k hk => ?_
    rw [bu k hk, bν k hk]
    congr 1
    field_simp
    ring
  have eW : waggr E e α N m b = waggr E e α N m a := by
    refine tab_congr fun k hk => ?_
    rw [bu k hk, bη k hk]
    congr 1
    field_simp
    ring
  have e2 : b.r2 • e.PP.F + dot (tab m (entry vs' e.I)) e.PP.G = a.r2 • e.PP.F + dot (tab m (entry vs e.I)) e.PP.G := by
    rw [br2]
    linear_combination (norm := module) -hc
  have ρeq : b.r1 * x + b.r2 = a.r1 * x + a.r2 := by rw [br1, br2]; field_simp; ring
  have da : (tab m fun k => a.u k * x + entry vs e.I k) = tab m fun k => b.u k * x + entry vs' e.I k := tab_congr masked
  have split : ∀ (u v : ℕ → Zr), dot (tab m fun k => u k * x + v k) e.PP.G = x • dot (tab m u) e.PP.G + dot (tab m v) e.PP.G := by
    intro u v
    rw [eq_tab e.PP.G 0 hG, dot_tab, dot_tab, dot_tab, Finset.smul_sum, ← Finset.sum_add_distrib]
    exact Finset.sum_congr rfl fun k _ => by module
  have e1 : b.r1 • e.PP.F + dot (tab m b.u) e.PP.G = a.r1 • e.PP.F + dot (tab m a.u) e.PP.G := by
    apply smul_cancel hx0
    have e3 := congrArg (fun l => dot l e.PP.G) da
    rw [split, split] at e3
    have e4 := congrArg (fun s : Zr => s • e.PP.F) ρeq
    linear_combination (norm := module) e4 - e3 - e2
  obtain ⟨x', ts', h1', h2', h3'⟩ := prove_eq_finish E e α N m hm hN hvc hG hH hRO vs' ws' hvs' hws' hvl' hwl' hV' hW' hI hJ
    hIlt hJlt heq' b bl
  rw [eV, eW] at h1' h2' h3'
  rw [e1, e2] at h2' h3'
  rw [h1] at h1'
  obtain rfl : x = x' := by simpa using h1'
  rw [h2] at h2'
  obtain rfl : ts = ts' := Option.some_inj.1 h2'
  refine ⟨b, bl, ?_, masked⟩
  rw [h3', ← da, ρeq, ← h3, h]

theorem finish_fields (E : Curve G1 G2 GT) (e : Equalities G1 G2 GT) (α : Zr) (N m : ℕ) (x : Zr) (ts a : List Zr) (ρ : Zr)
    (Va Wa : List G1) (U V : G1) (p : AggregatedProof G1) (h : finish E e α N m x ts a ρ Va Wa U V = some p) :
    p.Vaggr = Va ∧ p.Waggr = Wa ∧ p.V = V ∧ p.ρ = ρ := by
  unfold finish at h
  obtain ⟨q, -, h⟩ := obind_elim h
  obtain ⟨ipa, -, h⟩ := obind_elim h
  obtain ⟨π, -, h⟩ := obind_elim h
  rw [Option.pure_def, Option.some_inj] at h
  rw [← h]; exact ⟨rfl, rfl, rfl, rfl⟩

/-- The random values are determined by the proof and the `u`s. -/
theorem prove_unique (E : Curve G1 G2 GT) (e : Equalities G1 G2 GT) (α : Zr) (hα : α ≠ 0) (hg : E.genG1 ≠ 0) (N m : ℕ) (hm : 0 < m)
    (hN : 2 ≤ N) (hvc : e.PP.vc = PP.newPublicParams E α N)
    (hG : e.PP.G.length = m) (hH : e.PP.H.length = m) (hF : e.PP.F ≠ 0)
    (hRO : ∀ gs is d n, ∃ l, e.RO gs is d n = some l ∧ l.length = n)
    (vs ws : List (List Zr)) (hvs : vs.length = m) (hws : ws.length = m)
    (hvl : ∀ v ∈ vs, v.length = N) (hwl : ∀ w ∈ ws, w.length = N)
    (hV : e.V = vs.map fun v => PP.expo α v • E.genG1) (hW : e.W = ws.map fun w => PP.expo α w • E.genG1)
    (hI : e.I.length = m) (hJ : e.J.length = m) (hIlt : ∀ i ∈ e.I, i + 1 < N) (hJlt : ∀ i ∈ e.J, i + 1 < N)
    (heq : ∀ k < m, entry vs e.I k = entry ws e.J k)
    (p : AggregatedProof G1) (x : Zr) (hx : e.RO (p.Vaggr ++ p.Waggr ++ e.V ++ e.W) [] e.PP.digest 1 = some [x])
    (hx0 : x ≠ 0) (a b : EqsRand) (ha : a.uην.length = m) (hb : b.uην.length = m) (h : e.prove E a vs ws = some p)
    (h' : e.prove E b vs ws = some p) (hab : ∀ k < m, a.u k * x + entry vs e.I k = b.u k * x + entry vs e.I k) : a = b := by
  obtain ⟨x', ts, h1, h2, h3⟩ := prove_eq_finish E e α N m hm hN hvc hG hH hRO vs ws hvs hws hvl hwl hV hW hI hJ hIlt hJlt
    heq a ha
  obtain ⟨x'', ts', h1', h2', h3'⟩ := prove_eq_finish E e α N m hm hN hvc hG hH hRO vs ws hvs hws hvl hwl hV hW hI hJ hIlt hJlt
    heq b hb
  rw [h3] at h
  rw [h3'] at h'
  obtain ⟨f1, f2, f3, f4⟩ := finish_fields E e α N m _ _ _ _ _ _ _ _ p h
  obtain ⟨g1, g2, g3, g4⟩ := finish_fields E e α N m _ _ _ _ _ _ _ _ p h'
  obtain rfl : x = x' := by rw [f1, f2, h1] at hx; simpa using hx.symm
  obtain rfl : x = x'' := by rw [g1, g2, h1'] at hx; simpa using hx.symm
  have hu : ∀ k < m, a.u k = b.u k := fun k hk => mul_right_cancel₀ hx0 (add_right_cancel (hab k hk))
  have hαN : α ^ N ≠ 0 := pow_ne_zero _ hα
  have hν : ∀ k < m, a.ν k = b.ν k := by
    intro k hk
    have := congrArg (fun l => l.getD k 0) (f1.symm.trans g1)
    dsimp only [vaggr] at this
    rw [tab_getD _ hk, tab_getD _ hk, hu k hk] at this
    exact mul_right_cancel₀ hαN (add_left_cancel (smul_scalar_cancel hg this))
  have hη : ∀ k < m, a.η k = b.η k := by
    intro k hk
    have := congrArg (fun l => l.getD k 0) (f2.symm.trans g2)
    dsimp only [waggr] at this
    rw [tab_getD _ hk, tab_getD _ hk, hu k hk] at this
    exact mul_right_cancel₀ hαN (add_left_cancel (smul_scalar_cancel hg this))
  have hr2 : a.r2 = b.r2 := smul_scalar_cancel hF (add_right_cancel (f3.symm.trans g3))
  have hr1 : a.r1 = b.r1 := by
    have := f4.symm.trans g4
    rw [negZr_eq, negZr_eq, neg_inj, hr2] at this
    exact mul_right_cancel₀ hx0 (add_right_cancel this)
  have hl : a.uην = b.uην := by
    rw [eq_tab a.uην (0, 0, 0) ha, eq_tab b.uην (0, 0, 0) hb]
    refine tab_congr fun k hk => Prod.ext (hu k hk) (Prod.ext (hη k hk) (hν k hk))
  cases a; cases b
  dsimp only at hl hr1 hr2
  rw [hl, hr1, hr2]

end PoL.Poe
