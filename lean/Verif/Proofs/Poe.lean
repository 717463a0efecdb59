import Verif.Model.Poe
import Verif.Proofs.Tab
import Verif.Proofs.PointProofs

/-!
# Helper lemmas about the equality proofs (`poe/poe.go`)
-/

set_option linter.unusedSectionVars false

namespace PoL.Poe

open BP

variable {G1 G2 GT : Type} [AddCommGroup G1] [Module Zr G1] [AddCommGroup G2] [Module Zr G2]
  [AddCommGroup GT] [Module Zr GT] [DecidableEq G1] [DecidableEq GT]

theorem uint16BE_def (n : ℕ) : uint16BE n = natToBE 2 (n % 65536) := rfl

/-- The code's `RO` returns as many scalars as asked for. -/
theorem ro_total (E : Curve G1 G2 GT) (hE : E.Lawful) (gs : List G1) (is : List ℕ) (d : Bytes) (n : ℕ) :
    ∃ l, ro E gs is d n = some l ∧ l.length = n := by
  have : ∀ i : ℕ, ∃ x, fieldElementFromBytes (E.hmac (compressParameters E gs is d) (uint16BE i)) = some x :=
    fun i => fieldElementFromBytes_isSome (hE.hmac_len _ _)
  choose f hf using this
  exact ⟨tab n f, mapM_tab f fun k _ => hf k, by simp⟩

theorem ipaParams_eq (E : Curve G1 G2 GT) (pp : PP G1 G2 GT) (h : pp.G.length ≤ pp.H.length) :
    ∃ q, ipaParams E pp = some q ∧ q.G = pp.G ∧ q.H = pp.H := by
  obtain ⟨U, hU⟩ := randGenVec_zero E "u"
  obtain ⟨d, hd⟩ := setupDigest_isSome E { digest := [], G := pp.G, H := pp.H, U := U } (Or.inr h)
  exact ⟨_, obind_step hU hd, rfl, rfl⟩

theorem selectG2_eq (E : Curve G1 G2 GT) (pp : PP G1 G2 GT) (α : Zr) (N m : ℕ)
    (hvc : pp.vc = PP.newPublicParams E α N) (idx : List ℕ) (hidx : idx.length = m) (hlt : ∀ i ∈ idx, i < N) :
    selectG2 pp idx m = some (tab m fun k => α ^ (N - idx.getD k 0) • E.genG2) := by
  apply mapM_tab
  intro k hk
  have hk' : k < idx.length := by omega
  have hi := hlt _ (List.getElem_mem hk')
  rw [List.getD_eq_getElem?_getD, List.getElem?_eq_getElem hk', hvc]
  simp only [Option.bind_eq_bind, Option.bind_some, Option.getD_some]
  rw [if_neg (by rw [PP.new_N]; omega), PP.new_N, PP.new_G2s_lt E α N (by omega)]
  congr 3
  omega

/-- The two sides of the pairing equation of `Verify`, as multiples of one pairing. -/
def lhs (α : Zr) (N m : ℕ) (e : Equalities G1 G2 GT) (p : AggregatedProof G1) (x : Zr) (ts : List Zr) : G1 :=
  ∑ k ∈ Finset.range m, ((ts.getD (2 * k) 0 * α ^ (N - e.I.getD k 0)) • (e.V.getD k 0 + x • p.Vaggr.getD k 0)
    + (ts.getD (2 * k + 1) 0 * α ^ (N - e.J.getD k 0)) • (e.W.getD k 0 + x • p.Waggr.getD k 0))

def rhs (E : Curve G1 G2 GT) (α : Zr) (N : ℕ) (p : AggregatedProof G1) : G1 :=
  p.Ω + (p.c * α ^ (N + 1)) • E.genG1

theorem fromEnd_zero {α : Type} {l : List α} {n : ℕ} (h : l.length = n) (hn : 0 < n) : fromEnd l 0 = l[n - 1]? := by
  rw [fromEnd, if_pos (by omega), h]
  rfl

/-- What `Verify` computes, for any statement and proof of the right shapes. -/
theorem verify_eq (E : Curve G1 G2 GT) (e : Equalities G1 G2 GT) (p : AggregatedProof G1) (α : Zr) (N m : ℕ)
    (hN : 0 < N) (hm : 0 < m) (hvc : e.PP.vc = PP.newPublicParams E α N) (hV : e.V.length = m) (hW : e.W.length = m)
    (hI : e.I.length = m) (hJ : e.J.length = m) (hIlt : ∀ i ∈ e.I, i < N) (hJlt : ∀ i ∈ e.J, i < N)
    (hVa : p.Vaggr.length = m) (hWa : p.Waggr.length = m) (hH : e.PP.H.length = m)
    (x : Zr) (xs : List Zr) (hx : e.RO (p.Vaggr ++ p.Waggr ++ e.V ++ e.W) [] e.PP.digest 1 = some (x :: xs)) (ts : List Zr)
    (hts : e.RO (p.Vaggr ++ p.Waggr ++ e.V ++ e.W ++ [p.U] ++ [p.V]) [] e.PP.digest (2 * m) = some ts)
    (htl : ts.length = 2 * m) (q : BP.PP G1) (hq : ipaParams E e.PP = some q) :
    e.verify E p =
      if E.pair (lhs α N m e p x ts) E.genG2 ≠ E.pair (rhs E α N p) E.genG2 then some false
      else InnerProductProof.verify E { p.IPP with
        C := p.c, P := p.ρ • e.PP.F + x • p.U + p.V
          + dot (tab m fun k => ts.getD (2 * k) 0 + ts.getD (2 * k + 1) 0) e.PP.H } q := by
  have s1 := selectG2_eq E e.PP α N m hvc e.I hI hIlt
  have s2 := selectG2_eq E e.PP α N m hvc e.J hJ hJlt
  have a1 : Gv.add e.V (Gv.mul p.Vaggr x) = some (tab m fun k => e.V.getD k 0 + x • p.Vaggr.getD k 0) := by
    rw [eq_tab e.V 0 hV, eq_tab p.Vaggr 0 hVa, Gv.mul_tab, Gv.add_tab]
    congr 1
    exact tab_congr fun k hk => by simp only [tab_getD _ hk]
  have a2 : Gv.add e.W (Gv.mul p.Waggr x) = some (tab m fun k => e.W.getD k 0 + x • p.Waggr.getD k 0) := by
    rw [eq_tab e.W 0 hW, eq_tab p.Waggr 0 hWa, Gv.mul_tab, Gv.add_tab]
    congr 1
    exact tab_congr fun k hk => by simp only [tab_getD _ hk]
  have ev := Vec.evens_tab htl
  have od := Vec.odds_tab htl
  have b1 := Gv.mulV_tab m (fun k => e.V.getD k 0 + x • p.Vaggr.getD k 0) (fun k => ts.getD (2 * k) 0)
  have b2 := Gv.mulV_tab m (fun k => e.W.getD k 0 + x • p.Waggr.getD k 0) (fun k => ts.getD (2 * k + 1) 0)
  have p1 := pairProd_tab E hm (fun k => ts.getD (2 * k) 0 • (e.V.getD k 0 + x • p.Vaggr.getD k 0))
    (fun k => α ^ (N - e.I.getD k 0))
  have p2 := pairProd_tab E hm (fun k => ts.getD (2 * k + 1) 0 • (e.W.getD k 0 + x • p.Waggr.getD k 0))
    (fun k => α ^ (N - e.J.getD k 0))
  have g1 : e.PP.vc.G1s[0]? = some (α ^ 1 • E.genG1) := by rw [hvc, PP.new_G1s_lt E α N hN]
  have g2 : fromEnd e.PP.vc.G2s 0 = some (α ^ N • E.genG2) := by
    rw [hvc, fromEnd_zero (PP.new_G2s_length E α N) hN, PP.new_G2s_lt E α N (by omega)]
    congr 3; omega
  have d1 := pairProd_singleton E p.Ω E.genG2
  have d2 := pairProd_singleton E (p.c • α ^ 1 • E.genG1) (α ^ N • E.genG2)
  have hb := Vec.add_tab m (fun k => ts.getD (2 * k) 0) (fun k => ts.getD (2 * k + 1) 0)
  obtain ⟨h1, h2⟩ := gv_mulV_sum hH (v := tab m fun k => ts.getD (2 * k) 0 + ts.getD (2 * k + 1) 0) (by simp) hm
  have enum : E.pair (∑ k ∈ Finset.range m, α ^ (N - e.I.getD k 0) • ts.getD (2 * k) 0 • (e.V.getD k 0 + x • p.Vaggr.getD k 0)) E.genG2
      + E.pair (∑ k ∈ Finset.range m, α ^ (N - e.J.getD k 0) • ts.getD (2 * k + 1) 0 • (e.W.getD k 0 + x • p.Waggr.getD k 0)) E.genG2
      = E.pair (lhs α N m e p x ts) E.genG2 := by
    rw [← LinearMap.add_apply, ← map_add, ← Finset.sum_add_distrib, lhs]
    congr 2
    refine Finset.sum_congr rfl fun k _ => ?_
    module
  have eden : E.pair p.Ω E.genG2 + E.pair (p.c • α ^ 1 • E.genG1) (α ^ N • E.genG2) = E.pair (rhs E α N p) E.genG2 := by
    rw [rhs, map_add, LinearMap.add_apply]
    congr 1
    simp only [map_smul, LinearMap.smul_apply, smul_smul]
    congr 1
    ring
  rw [Equalities.verify]
  by_cases hc : E.pair (lhs α N m e p x ts) E.genG2 ≠ E.pair (rhs E α N p) E.genG2
  · rw [if_pos hc]
    have : e.verifyState E p = some (false, p) := by
      unfold Equalities.verifyState
      refine obind_step hx (obind_step (a := x) rfl ?_)
      rw [hV]
      refine obind_step hts (obind_step s1 (obind_step s2 (obind_step a1 (obind_step ev (obind_step b1 (obind_step p1
        (obind_step a2 (obind_step od (obind_step b2 (obind_step p2 (obind_step d1 (obind_step g1
        (obind_step g2 (obind_step d2 ?_))))))))))))))
      dsimp only
      rw [enum, eden, if_pos hc]
      rfl
    rw [this]; rfl
  · rw [if_neg hc]
    have : ∀ r, InnerProductProof.verify E { p.IPP with
        C := p.c, P := p.ρ • e.PP.F + x • p.U + p.V
          + dot (tab m fun k => ts.getD (2 * k) 0 + ts.getD (2 * k + 1) 0) e.PP.H } q = r →
        (e.verifyState E p).map Prod.fst = r := by
      intro r hr
      have : e.verifyState E p = r >>= fun b => some (b, { p with IPP := { p.IPP with
          C := p.c, P := p.ρ • e.PP.F + x • p.U + p.V
          + dot (tab m fun k => ts.getD (2 * k) 0 + ts.getD (2 * k + 1) 0) e.PP.H } }) := by
        unfold Equalities.verifyState
        refine obind_step hx (obind_step (a := x) rfl ?_)
        rw [hV]
        refine obind_step hts (obind_step s1 (obind_step s2 (obind_step a1 (obind_step ev (obind_step b1 (obind_step p1
          (obind_step a2 (obind_step od (obind_step b2 (obind_step p2 (obind_step d1 (obind_step g1
          (obind_step g2 (obind_step d2 ?_))))))))))))))
        dsimp only
        rw [enum, eden, if_neg hc]
        refine obind_step ev (obind_step od (obind_step hb (obind_step h1 (obind_step h2 (obind_step hq ?_)))))
        rw [hr]
        rfl
      rw [this]
      cases r <;> rfl
    exact this _ rfl

theorem fromEnd_G1s (E : Curve G1 G2 GT) (α : Zr) (N I : ℕ) (hI : I + 1 < N) :
    fromEnd (PP.newPublicParams E α N).G1s I = some (α ^ (2 * N - I) • E.genG1) := by
  have hl := PP.new_G1s_length E α N (by omega)
  rw [fromEnd, if_pos (by omega), hl, PP.new_G1s_ne E α N (by omega) (by omega)]
  congr 3; omega

theorem proveStep_eq (E : Curve G1 G2 GT) (α : Zr) (N : ℕ) (u η ν : Zr) (I J : ℕ) (hI : I + 1 < N) (hJ : J + 1 < N)
    (v w : List Zr) (hv : v.length = N) (hw : w.length = N) :
    proveStep (PP.newPublicParams E α N) N u η ν I J v w = some
      ((u * α ^ (I + 1) + ν * α ^ N) • E.genG1, (u * α ^ (J + 1) + η * α ^ N) • E.genG1,
        (ν * α ^ (2 * N - I)) • E.genG1, (η * α ^ (2 * N - J)) • E.genG1,
        PP.openExpo α N I v • E.genG1, PP.openExpo α N J w • E.genG1) := by
  unfold proveStep
  rw [if_neg (by omega)]
  have g : (PP.newPublicParams E α N).G1s[N - 1]? = some (α ^ N • E.genG1) := by
    rw [PP.new_G1s_lt E α N (by omega)]; congr 3; omega
  refine obind_step (PP.new_G1s_lt E α N (j := I) (by omega)) (obind_step g (obind_step (fromEnd_G1s E α N I hI)
    (obind_step (PP.new_G1s_lt E α N (j := J) (by omega)) (obind_step g (obind_step (fromEnd_G1s E α N J hJ)
    (obind_step (PP.openAt_eq E α N v hv (by omega) I (by omega)) (obind_step
    (PP.openAt_eq E α N w hw (by omega) J (by omega)) ?_)))))))
  simp only [Option.pure_def, smul_smul, add_smul]

/-- What the batch prover returns for any `V` and `W`, and what `Verify` says about it. -/
theorem prove_run (E : Curve G1 G2 GT) (hE : E.Lawful) (e : Equalities G1 G2 GT) (α : Zr) (N k m : ℕ) (hm2 : m = 2 ^ k)
    (hN : 2 ≤ N) (hvc : e.PP.vc = PP.newPublicParams E α N)
    (hG : e.PP.G.length = m) (hH : e.PP.H.length = m)
    (hRO : ∀ gs is d n, ∃ l, e.RO gs is d n = some l ∧ l.length = n)
    (vs ws : List (List Zr)) (hvs : vs.length = m) (hws : ws.length = m) (hvl : ∀ v ∈ vs, v.length = N)
    (hwl : ∀ w ∈ ws, w.length = N) (hVl : e.V.length = m) (hWl : e.W.length = m)
    (hI : e.I.length = m) (hJ : e.J.length = m) (hIlt : ∀ i ∈ e.I, i + 1 < N) (hJlt : ∀ i ∈ e.J, i + 1 < N)
    (rnd : EqsRand) (hrnd : rnd.uην.length = m) :
    ∃ p ts q, e.prove E rnd vs ws = some p ∧ ipaParams E e.PP = some q ∧
      e.RO (p.Vaggr ++ p.Waggr ++ e.V ++ e.W ++ [p.U] ++ [p.V]) [] e.PP.digest (2 * m) = some ts ∧ ts.length = 2 * m ∧
      ((e.V = vs.map fun v => PP.expo α v • E.genG1) → (e.W = ws.map fun w => PP.expo α w • E.genG1) →
        (∀ y ∈ ippChallenges E q p.IPP, y ≠ 0) → e.verify E p = some (decide (E.pair
        ((α ^ (N + 1) * ∑ k ∈ Finset.range m, ts.getD (2 * k + 1) 0 *
          ((ws.getD k []).getD (e.J.getD k 0) 0 - (vs.getD k []).getD (e.I.getD k 0) 0)) • E.genG1) E.genG2 = 0))) := by
  have hm : 0 < m := by rw [hm2]; positivity
  have getmem : ∀ {β : Type} (l : List β) (d : β) (k : ℕ), l.length = m → k < m → l[k]? = some (l.getD k d) ∧ l.getD k d ∈ l := by
    intro β l d k hl hk
    rw [List.getD_eq_getElem?_getD, List.getElem?_eq_getElem (by omega : k < l.length)]
    exact ⟨rfl, List.getElem_mem _⟩
  -- the lists as functions
  obtain ⟨v, hv⟩ : ∃ v : ℕ → List Zr, v = fun k => vs.getD k [] := ⟨_, rfl⟩
  obtain ⟨w, hw⟩ : ∃ w : ℕ → List Zr, w = fun k => ws.getD k [] := ⟨_, rfl⟩
  obtain ⟨I, hIf⟩ : ∃ I : ℕ → ℕ, I = fun k => e.I.getD k 0 := ⟨_, rfl⟩
  obtain ⟨J, hJf⟩ : ∃ J : ℕ → ℕ, J = fun k => e.J.getD k 0 := ⟨_, rfl⟩
  obtain ⟨u, hu⟩ : ∃ u : ℕ → Zr, u = fun k => (rnd.uην.getD k (0, 0, 0)).1 := ⟨_, rfl⟩
  obtain ⟨η, hη⟩ : ∃ η : ℕ → Zr, η = fun k => (rnd.uην.getD k (0, 0, 0)).2.1 := ⟨_, rfl⟩
  obtain ⟨ν, hν⟩ : ∃ ν : ℕ → Zr, ν = fun k => (rnd.uην.getD k (0, 0, 0)).2.2 := ⟨_, rfl⟩
  have vlen : ∀ k < m, (v k).length = N := fun k hk => by rw [hv]; exact hvl _ (getmem vs [] k hvs hk).2
  have wlen : ∀ k < m, (w k).length = N := fun k hk => by rw [hw]; exact hwl _ (getmem ws [] k hws hk).2
  have ilt : ∀ k < m, I k + 1 < N := fun k hk => by rw [hIf]; exact hIlt _ (getmem e.I 0 k hI hk).2
  have jlt : ∀ k < m, J k + 1 < N := fun k hk => by rw [hJf]; exact hJlt _ (getmem e.J 0 k hJ hk).2
  obtain ⟨steps, hsteps⟩ : ∃ steps, steps = fun k : ℕ =>
      ((u k * α ^ (I k + 1) + ν k * α ^ N) • E.genG1, (u k * α ^ (J k + 1) + η k * α ^ N) • E.genG1,
        (ν k * α ^ (2 * N - I k)) • E.genG1, (η k * α ^ (2 * N - J k)) • E.genG1,
        PP.openExpo α N (I k) (v k) • E.genG1, PP.openExpo α N (J k) (w k) • E.genG1) := ⟨_, rfl⟩
  have q1 : vs[0]? = some (v 0) := by rw [hv]; exact (getmem vs [] 0 hvs hm).1
  have q2 : ((List.range m).mapM fun k => do
      let (u, η, ν) ← rnd.uην[k]?
      proveStep e.PP.vc (v 0).length u η ν (← e.I[k]?) (← e.J[k]?) (← vs[k]?) (← ws[k]?)) = some (tab m steps) := by
    apply mapM_tab
    intro k hk
    refine obind_step (getmem rnd.uην (0, 0, 0) k hrnd hk).1 (obind_step (getmem e.I 0 k hI hk).1
      (obind_step (getmem e.J 0 k hJ hk).1 (obind_step (getmem vs [] k hvs hk).1 (obind_step (getmem ws [] k hws hk).1 ?_))))
    rw [vlen 0 hm, hvc]
    have := proveStep_eq E α N (u k) (η k) (ν k) (I k) (J k) (ilt k hk) (jlt k hk) (v k) (w k) (vlen k hk) (wlen k hk)
    rw [hsteps]
    rw [hu, hη, hν, hIf, hJf, hv, hw] at this ⊢
    exact this
  have q3 : ((rnd.uην.take m).map fun t => t.1) = tab m u := by
    rw [List.take_of_length_le (by omega), eq_tab rnd.uην (0, 0, 0) hrnd, map_tab, hu]
  obtain ⟨Va, hVa⟩ : ∃ Va, Va = tab m fun k => (steps k).1 := ⟨_, rfl⟩
  obtain ⟨Wa, hWa⟩ : ∃ Wa, Wa = tab m fun k => (steps k).2.1 := ⟨_, rfl⟩
  obtain ⟨lx, hlx, llx⟩ := hRO (Va ++ Wa ++ e.V ++ e.W) [] e.PP.digest 1
  obtain ⟨x, rfl⟩ := List.length_eq_one_iff.1 llx
  obtain ⟨vi, hvi⟩ : ∃ vi : ℕ → Zr, vi = fun k => (v k).getD (I k) 0 := ⟨_, rfl⟩
  obtain ⟨wj, hwj⟩ : ∃ wj : ℕ → Zr, wj = fun k => (w k).getD (J k) 0 := ⟨_, rfl⟩
  have q4 : ((List.range m).mapM fun i => do (← vs[i]?)[← e.I[i]?]?) = some (tab m vi) := by
    apply mapM_tab
    intro k hk
    refine obind_step (getmem vs [] k hvs hk).1 (obind_step (getmem e.I 0 k hI hk).1 ?_)
    have h1 := vlen k hk
    have h2 := ilt k hk
    rw [hv, hIf] at *
    rw [hvi]
    dsimp only at *
    rw [List.getD_eq_getElem?_getD (l := vs.getD k []), List.getElem?_eq_getElem (by omega)]
    rfl
  obtain ⟨q5, q6⟩ := gv_mulV_sum hG (v := tab m u) (by simp) hm
  obtain ⟨q7, q8⟩ := gv_mulV_sum hG (v := tab m vi) (by simp) hm
  obtain ⟨U, hU⟩ : ∃ U, U = rnd.r1 • e.PP.F + dot (tab m u) e.PP.G := ⟨_, rfl⟩
  obtain ⟨V, hVV⟩ : ∃ V, V = rnd.r2 • e.PP.F + dot (tab m vi) e.PP.G := ⟨_, rfl⟩
  obtain ⟨ts, hts, htl⟩ := hRO (Va ++ Wa ++ e.V ++ e.W ++ [U] ++ [V]) [] e.PP.digest (2 * m)
  obtain ⟨t0, ht0⟩ : ∃ t0 : ℕ → Zr, t0 = fun k => ts.getD (2 * k) 0 := ⟨_, rfl⟩
  obtain ⟨t1, ht1⟩ : ∃ t1 : ℕ → Zr, t1 = fun k => ts.getD (2 * k + 1) 0 := ⟨_, rfl⟩
  have ev : Vec.evens ts = some (tab m t0) := by rw [ht0]; exact Vec.evens_tab htl
  have od : Vec.odds ts = some (tab m t1) := by rw [ht1]; exact Vec.odds_tab htl
  have r1 : Gv.add (tab m fun k => (steps k).2.2.2.2.1) (Gv.mul (tab m fun k => (steps k).2.2.1) x)
      = some (tab m fun k => (steps k).2.2.2.2.1 + x • (steps k).2.2.1) := by rw [Gv.mul_tab, Gv.add_tab]
  have r2 : Gv.add (tab m fun k => (steps k).2.2.2.2.2) (Gv.mul (tab m fun k => (steps k).2.2.2.1) x)
      = some (tab m fun k => (steps k).2.2.2.2.2 + x • (steps k).2.2.2.1) := by rw [Gv.mul_tab, Gv.add_tab]
  have r3 := Gv.mulV_tab m (fun k => (steps k).2.2.2.2.1 + x • (steps k).2.2.1) t0
  have r4 := Gv.mulV_tab m (fun k => (steps k).2.2.2.2.2 + x • (steps k).2.2.2.1) t1
  have r5 := Gv.sum_tab hm (fun k => t0 k • ((steps k).2.2.2.2.1 + x • (steps k).2.2.1))
  have r6 := Gv.sum_tab hm (fun k => t1 k • ((steps k).2.2.2.2.2 + x • (steps k).2.2.2.1))
  obtain ⟨Ω, hΩ⟩ : ∃ Ω, Ω = (∑ k ∈ Finset.range m, t0 k • ((steps k).2.2.2.2.1 + x • (steps k).2.2.1))
    + ∑ k ∈ Finset.range m, t1 k • ((steps k).2.2.2.2.2 + x • (steps k).2.2.2.1) := ⟨_, rfl⟩
  have r7 : Vec.add (Vec.mul (tab m u) x) (tab m vi) = some (tab m fun k => u k * x + vi k) := by
    rw [Vec.mul_tab, Vec.add_tab]
  have r8 := Vec.add_tab m t0 t1
  obtain ⟨h1, h2⟩ := gv_mulV_sum hH (v := tab m fun k => t0 k + t1 k) (by simp) hm
  obtain ⟨ρ, hρ⟩ : ∃ ρ, ρ = negZr (rnd.r1 * x + rnd.r2) := ⟨_, rfl⟩
  obtain ⟨q, hq, hqG, hqH⟩ := ipaParams_eq E e.PP (by omega)
  obtain ⟨a, ha⟩ : ∃ a, a = tab m fun k => u k * x + vi k := ⟨_, rfl⟩
  obtain ⟨b, hb⟩ : ∃ b, b = tab m fun k => t0 k + t1 k := ⟨_, rfl⟩
  have la : a.length = 2 ^ k := by rw [ha, tab_length, hm2]
  have lb : b.length = 2 ^ k := by rw [hb, tab_length, hm2]
  have hipa : newInnerProdArgument q a b
      = some { pp := q, a := a, b := b, C := dot a b, P := dot a q.G + dot b q.H } := by
    rw [newInnerProdArgument, Vec.innerProd_eq (by omega), BP.commit_eq q a b (by omega)
      (by intro h; rw [h] at la; simp only [List.length_nil] at la; omega) (by rw [hqG]; omega) (by rw [hqH]; omega)]
    rfl
  obtain ⟨P, hP⟩ : ∃ P, P = ρ • e.PP.F + x • U + V + dot b e.PP.H := ⟨_, rfl⟩
  obtain ⟨π, xI, hπ, hπP, hπC, -, hxI, hver⟩ := prove_verify E hE q a b (dot a b) P k la lb (by rw [hqG, hG, hm2])
    (by rw [hqH, hH, hm2])
  obtain ⟨p, hp⟩ : ∃ p : AggregatedProof G1, p = { IPP := π, ρ := ρ, V := V, U := U, Ω := Ω, Vaggr := Va, Waggr := Wa, c := π.C } :=
    ⟨_, rfl⟩
  have hprove : e.prove E rnd vs ws = some p := by
    unfold Equalities.prove
    dsimp only
    rw [if_neg (by omega), if_neg (by omega), if_neg (by omega)]
    refine obind_step q1 ?_
    rw [hVl]
    refine obind_step q2 ?_
    rw [q3]
    simp only [map_tab]
    rw [← hVa, ← hWa]
    refine obind_step hlx (obind_step (a := x) rfl (obind_step q4 (obind_step q5 (obind_step q6 (obind_step q7 (obind_step q8 ?_))))))
    rw [← hU, ← hVV]
    refine obind_step hts (obind_step r1 (obind_step ev (obind_step r3 (obind_step r5 (obind_step r2 (obind_step od
      (obind_step r4 (obind_step r6 ?_))))))))
    rw [← hΩ]
    refine obind_step r7 (obind_step ev (obind_step od (obind_step r8 (obind_step h1 (obind_step h2 (obind_step hq ?_))))))
    rw [← ha, ← hb, ← hρ]
    refine obind_step hipa ?_
    dsimp only
    rw [← hP]
    refine obind_step hπ ?_
    rw [hp]; rfl
  refine ⟨p, ts, q, hprove, hq, ?_, htl, fun hV hW hne => ?_⟩
  · rw [hp]; exact hts
  · rw [verify_eq E e p α N m (by omega) hm hvc hVl hWl hI hJ (fun i hi => by have := hIlt i hi; omega)
      (fun i hi => by have := hJlt i hi; omega) (by rw [hp, hVa]; simp) (by rw [hp, hWa]; simp) hH x []
      (by rw [hp]; exact hlx) ts (by rw [hp]; exact hts) htl q hq]
    have hipp : InnerProductProof.verify E { p.IPP with
        C := p.c, P := p.ρ • e.PP.F + x • p.U + p.V
          + dot (tab m fun k => ts.getD (2 * k) 0 + ts.getD (2 * k + 1) 0) e.PP.H } q = some true := by
      have e1 : (tab m fun k => ts.getD (2 * k) 0 + ts.getD (2 * k + 1) 0) = b := by rw [hb, ht0, ht1]
      rw [e1]
      subst hp
      dsimp only at hne ⊢
      rw [← hP, hver hne P π.C rfl, hπC, Option.some_inj, decide_eq_true_eq, hqG, hqH, hP]
      have e2 : dot a e.PP.G = x • dot (tab m u) e.PP.G + dot (tab m vi) e.PP.G := by
        rw [ha, eq_tab e.PP.G 0 hG, dot_tab, dot_tab, dot_tab, Finset.smul_sum, ← Finset.sum_add_distrib]
        exact Finset.sum_congr rfl fun k _ => by module
      rw [e2, hU, hVV, hρ, negZr_eq]
      module
    have hlhs : lhs α N m e p x ts - rhs E α N p = (α ^ (N + 1) * ∑ k ∈ Finset.range m, t1 k * (wj k - vi k)) • E.genG1 := by
      have e1 : lhs α N m e p x ts = ∑ k ∈ Finset.range m, ((t0 k * α ^ (N - I k)) • (PP.expo α (v k) • E.genG1 + x • (steps k).1)
          + (t1 k * α ^ (N - J k)) • (PP.expo α (w k) • E.genG1 + x • (steps k).2.1)) := by
        unfold lhs
        refine Finset.sum_congr rfl fun k hk => ?_
        have hk := Finset.mem_range.1 hk
        have c1 : e.V.getD k 0 = PP.expo α (v k) • E.genG1 := by
          rw [hV, hv, List.getD_eq_getElem?_getD, List.getElem?_map, (getmem vs [] k hvs hk).1]; rfl
        have c2 : e.W.getD k 0 = PP.expo α (w k) • E.genG1 := by
          rw [hW, hw, List.getD_eq_getElem?_getD, List.getElem?_map, (getmem ws [] k hws hk).1]; rfl
        have c3 : p.Vaggr.getD k 0 = (steps k).1 := by rw [hp]; dsimp only; rw [hVa, tab_getD _ hk]
        have c4 : p.Waggr.getD k 0 = (steps k).2.1 := by rw [hp]; dsimp only; rw [hWa, tab_getD _ hk]
        rw [c1, c2, c3, c4, ht0, ht1, hIf, hJf]
      have e2 : rhs E α N p = (∑ k ∈ Finset.range m, (t0 k • ((steps k).2.2.2.2.1 + x • (steps k).2.2.1)
          + t1 k • ((steps k).2.2.2.2.2 + x • (steps k).2.2.2.1)))
          + (∑ k ∈ Finset.range m, (u k * x + vi k) * (t0 k + t1 k) * α ^ (N + 1)) • E.genG1 := by
        rw [rhs, hp]
        dsimp only
        rw [hπC, hΩ, Finset.sum_add_distrib, ha, hb, dot_tab, Finset.sum_mul]
        rfl
      rw [e1, e2, ← sub_sub, ← Finset.sum_sub_distrib, Finset.sum_smul, ← Finset.sum_sub_distrib, Finset.mul_sum, Finset.sum_smul]
      refine Finset.sum_congr rfl fun k hk => ?_
      have hk := Finset.mem_range.1 hk
      have o1 := PP.openExpo_add α N (I k) (v k) (vlen k hk) (by have := ilt k hk; omega)
      have o2 := PP.openExpo_add α N (J k) (w k) (wlen k hk) (by have := jlt k hk; omega)
      have pw : ∀ i, i + 1 < N → α ^ (N - i) * α ^ (i + 1) = α ^ (N + 1) ∧ α ^ (N - i) * α ^ N = α ^ (2 * N - i) := by
        intro i hi
        rw [← pow_add, ← pow_add]
        exact ⟨by congr 1; omega, by congr 1; omega⟩
      obtain ⟨w1, w2⟩ := pw (I k) (ilt k hk)
      obtain ⟨w3, w4⟩ := pw (J k) (jlt k hk)
      rw [hsteps, hvi, hwj]
      dsimp only
      simp only [smul_smul, ← add_smul, ← sub_smul]
      congr 1
      linear_combination (-t0 k) * o1 - t1 k * o2 + t0 k * x * u k * w1 + t0 k * x * ν k * w2
        + t1 k * x * u k * w3 + t1 k * x * η k * w4
    have hsum : (∑ k ∈ Finset.range m, ts.getD (2 * k + 1) 0 *
          ((ws.getD k []).getD (e.J.getD k 0) 0 - (vs.getD k []).getD (e.I.getD k 0) 0))
          = ∑ k ∈ Finset.range m, t1 k * (wj k - vi k) := by
      rw [ht1, hwj, hvi, hv, hw, hIf, hJf]
    rw [hsum, ← hlhs, map_sub, LinearMap.sub_apply, hipp]
    by_cases hc : E.pair (lhs α N m e p x ts) E.genG2 = E.pair (rhs E α N p) E.genG2
    · rw [if_neg (by simpa using hc), hc]; simp
    · rw [if_pos hc, Option.some_inj]
      symm
      rw [decide_eq_false_iff_not, sub_eq_zero]
      exact hc

/-- What the honest batch prover returns, and what `Verify` says about it. -/
theorem prove_verdict (E : Curve G1 G2 GT) (hE : E.Lawful) (e : Equalities G1 G2 GT) (α : Zr) (N k m : ℕ) (hm2 : m = 2 ^ k)
    (hN : 2 ≤ N) (hvc : e.PP.vc = PP.newPublicParams E α N)
    (hG : e.PP.G.length = m) (hH : e.PP.H.length = m)
    (hRO : ∀ gs is d n, ∃ l, e.RO gs is d n = some l ∧ l.length = n)
    (vs ws : List (List Zr)) (hvs : vs.length = m) (hws : ws.length = m) (hvl : ∀ v ∈ vs, v.length = N)
    (hwl : ∀ w ∈ ws, w.length = N) (hV : e.V = vs.map fun v => PP.expo α v • E.genG1)
    (hW : e.W = ws.map fun w => PP.expo α w • E.genG1)
    (hI : e.I.length = m) (hJ : e.J.length = m) (hIlt : ∀ i ∈ e.I, i + 1 < N) (hJlt : ∀ i ∈ e.J, i + 1 < N)
    (rnd : EqsRand) (hrnd : rnd.uην.length = m) :
    ∃ p ts q, e.prove E rnd vs ws = some p ∧ ipaParams E e.PP = some q ∧
      e.RO (p.Vaggr ++ p.Waggr ++ e.V ++ e.W ++ [p.U] ++ [p.V]) [] e.PP.digest (2 * m) = some ts ∧ ts.length = 2 * m ∧
      ((∀ y ∈ ippChallenges E q p.IPP, y ≠ 0) → e.verify E p = some (decide (E.pair
        ((α ^ (N + 1) * ∑ k ∈ Finset.range m, ts.getD (2 * k + 1) 0 *
          ((ws.getD k []).getD (e.J.getD k 0) 0 - (vs.getD k []).getD (e.I.getD k 0) 0)) • E.genG1) E.genG2 = 0))) := by
  obtain ⟨p, ts, q, h1, h2, h3, h4, h5⟩ := prove_run E hE e α N k m hm2 hN hvc hG hH hRO vs ws hvs hws hvl hwl
    (by simp [hV, hvs]) (by simp [hW, hws]) hI hJ hIlt hJlt rnd hrnd
  exact ⟨p, ts, q, h1, h2, h3, h4, h5 hV hW⟩

end PoL.Poe
