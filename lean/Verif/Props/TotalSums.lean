import Verif.Props.TotalOnce

/-!
# C135: proofs of totals can be added
-/

set_option linter.unusedSectionVars false

namespace PoL.Props
open Spec BP PP Verkle Pol

variable {G1 G2 GT : Type} [AddCommGroup G1] [Module Zr G1] [AddCommGroup G2] [Module Zr G2]
  [AddCommGroup GT] [Module Zr GT] [DecidableEq G1] [DecidableEq GT]

/-- The equation that `TotalProof.Verify` checks. -/
theorem total_iff {E : Curve G1 G2 GT} (hE : E.Lawful) {α : Zr} {F L : ℕ} {pp : PublicParams G1 G2 GT} (h : Fits E α F L pp)
    (tp : TotalProof G1) (V : G1) : tp.verify E pp V = some true ↔
      E.pair (α ^ 2 • V) E.genG2 = E.pair (tp.liabilityProof + ((tp.sum : Zr) * α ^ (F + 3)) • E.genG1) E.genG2 := by
  unfold TotalProof.verify
  rw [h.PPPP, h.fanout, PP.verify_eq E hE α (F + 2) _ _ _ F (by omega), Option.some_inj, decide_eq_true_eq,
    show F + 2 - F = 2 by omega]
  rfl

/-- C135: accepted proofs of totals add up: the sum of the points is an accepted proof of the sum of the totals, for the sum of
the roots' `V`. -/
theorem C135_sum {E : Curve G1 G2 GT} (hE : E.Lawful) {α : Zr} {F L : ℕ} {pp : PublicParams G1 G2 GT} (h : Fits E α F L pp)
    (l : List (G1 × TotalProof G1)) (hl : ∀ e ∈ l, e.2.verify E pp e.1 = some true) :
    TotalProof.verify E ⟨(l.map fun e => e.2.liabilityProof).sum, (l.map fun e => e.2.sum).sum⟩ pp (l.map Prod.fst).sum
      = some true := by
  rw [total_iff hE h]
  induction l with
  | nil => simp
  | cons e l ih =>
    have h1 := (total_iff hE h _ _).1 (hl e (by simp))
    have h2 := ih fun e he => hl e (by simp [he])
    simp only [List.map_cons, List.sum_cons] at h2 ⊢
    rw [smul_add, map_add, LinearMap.add_apply, h1, h2, ← LinearMap.add_apply, ← map_add]
    congr 2
    push_cast
    rw [add_mul, add_smul]
    abel

/-- C135: so no other total can be proved for the sum of the roots, but by who has the point that the parameters leave out. -/
theorem C135_no_other {E : Curve G1 G2 GT} (hE : E.Lawful) (hnd : E.NonDegenerate) {α : Zr} {F L : ℕ}
    {pp : PublicParams G1 G2 GT} (h : Fits E α F L pp) (l : List (G1 × TotalProof G1))
    (hl : ∀ e ∈ l, e.2.verify E pp e.1 = some true)
    (hb : -2 ^ 63 ≤ (l.map fun e => e.2.sum).sum ∧ (l.map fun e => e.2.sum).sum < 2 ^ 63) (tp : TotalProof G1)
    (hb' : -2 ^ 63 ≤ tp.sum ∧ tp.sum < 2 ^ 63) (hacc : tp.verify E pp (l.map Prod.fst).sum = some true)
    (hne : tp.sum ≠ (l.map fun e => e.2.sum).sum) :
    (((l.map fun e => e.2.sum).sum : ℤ) - (tp.sum : Zr))⁻¹ • (tp.liabilityProof - (l.map fun e => e.2.liabilityProof).sum)
      = α ^ (F + 2 + 1) • E.genG1 := by
  exact C45_one_total hE hnd h _ tp ⟨(l.map fun e => e.2.liabilityProof).sum, (l.map fun e => e.2.sum).sum⟩ hb' hb hacc
    (C135_sum hE h l hl) hne

/-- C135: the proofs that `ProveTot` makes for any number of liability sets with the same parameters, each after any writes, add
up to an accepted proof of the sum of all amounts, for the sum of the roots. -/
theorem C135_sets {E : Curve G1 G2 GT} (hE : E.Lawful) {env : Env} (henv : env.Lawful) {α : Zr} {F L : ℕ} {n : ℕ}
    {pp : PublicParams G1 G2 GT} (hpp : Fits E α F L pp) (ls ls' : Fin n → LiabilitySet G1 G2 GT) (hist : Fin n → List (Str × ℤ))
    (h : ∀ c, NewSet E α F L (ls c)) (hp : ∀ c, (ls c).pp = pp) (hne : ∀ c, hist c ≠ [])
    (hids : ∀ c, ValidIds (ls c).tree.id2Path F L (hist c)) (hr : ∀ c, (ls c).sets E env (hist c) = some (ls' c))
    (htot : ∀ c, totalAmount (byPath (ls c).tree.id2Path (hist c)) < 2 ^ 63) :
    ∃ (tp : Fin n → TotalProof G1) (x : Fin n → Vertex G1),
      (∀ c, (ls' c).proveTot E = some (tp c) ∧ Vertex.fromBytes E ((ls' c).s.db []) = some (x c)) ∧
      TotalProof.verify E ⟨∑ c, (tp c).liabilityProof, ∑ c, totalAmount (byPath (ls c).tree.id2Path (hist c))⟩ pp (∑ c, (x c).V)
        = some true := by
  choose tp x h1 h2 h3 h4 using fun c => C44_total_proof hE henv (h c) (hist c) (hne c) (hids c) (hr c) (htot c)
  refine ⟨tp, x, fun c => ⟨h1 c, h3 c⟩, ?_⟩
  have := C135_sum hE hpp (List.ofFn fun c => ((x c).V, tp c)) (by
    intro e he
    obtain ⟨c, rfl⟩ := List.mem_ofFn.1 he
    have := h4 c
    rw [hp c] at this
    exact this)
  simp only [List.map_ofFn, List.sum_ofFn, Function.comp] at this
  simpa only [h2] using this

/-- C135: whoever sees a root and a proof of its total can make another root and an accepted proof for it, with any other total,
from the published parameters and without knowing any amount. -/
theorem C135_shifted {E : Curve G1 G2 GT} (hE : E.Lawful) {α : Zr} {F L : ℕ} {pp : PublicParams G1 G2 GT} (h : Fits E α F L pp)
    (tp : TotalProof G1) (V : G1) (hv : tp.verify E pp V = some true) (m : ℤ) :
    ∃ g, pp.PPPP.G1s[pp.fanout]? = some g ∧
      TotalProof.verify E { tp with sum := tp.sum + m } pp (V + (m : Zr) • g) = some true := by
  refine ⟨α ^ (F + 1) • E.genG1, by rw [h.PPPP, h.fanout]; exact new_G1s_lt E α (F + 2) (by omega), ?_⟩
  rw [total_iff hE h] at hv ⊢
  dsimp only
  rw [smul_add, map_add, LinearMap.add_apply, hv, ← LinearMap.add_apply, ← map_add]
  congr 2
  push_cast
  rw [add_mul, add_smul, add_assoc]
  congr 2
  rw [smul_smul, smul_smul]
  congr 1
  ring

/-- C135: the same for the other entries: another root with the same total, and its proof. -/
theorem C135_same_total {E : Curve G1 G2 GT} (hE : E.Lawful) {α : Zr} {F L : ℕ} {pp : PublicParams G1 G2 GT} (h : Fits E α F L pp)
    (tp : TotalProof G1) (V : G1) (hv : tp.verify E pp V = some true) (j : ℕ) (hj : j < F + 2) (hjF : j ≠ F) (m : Zr) :
    ∃ g g', pp.PPPP.G1s[j]? = some g ∧ pp.PPPP.G1s[j + 2]? = some g' ∧
      TotalProof.verify E { tp with liabilityProof := tp.liabilityProof + m • g' } pp (V + m • g) = some true := by
  refine ⟨α ^ (j + 1) • E.genG1, α ^ (j + 3) • E.genG1, by rw [h.PPPP]; exact new_G1s_lt E α (F + 2) (by omega),
    by rw [h.PPPP]; exact new_G1s_ne E α (F + 2) (by omega) (by omega), ?_⟩
  rw [total_iff hE h] at hv ⊢
  dsimp only
  rw [smul_add, map_add, LinearMap.add_apply, hv, ← LinearMap.add_apply, ← map_add, add_right_comm]
  congr 3
  rw [smul_smul, smul_smul, smul_smul, show α ^ 2 * m * α ^ (j + 1) = m * α ^ (j + 3) by ring]

/-- Two sets of total 42 each: the proofs add up to one of 84, and anyone can turn that into one of 83 for another root. -/
example : ∃ (pp : PublicParams Zr Zr Zr) (π V V' : Zr), TotalProof.verify toyCurve ⟨π, 84⟩ pp V = some true ∧
    TotalProof.verify toyCurve ⟨π, 83⟩ pp V' = some true := by
  obtain ⟨ls, ls1, ls2, ls3, -, -, x, W, h, ht, hids, h1, -⟩ := toy_stale
  have h42 : totalAmount (byPath ls.tree.id2Path toyHist) = 42 := by rw [ht]; decide
  obtain ⟨tp, x, -, hv⟩ := C135_sets toyCurve_lawful toyEnv_lawful (n := 2) h.pp (fun _ => ls) (fun _ => ls1) (fun _ => toyHist)
    (fun _ => h) (fun _ => rfl) (fun _ => by decide) (fun _ => by rw [ht]; exact toyHist_valid) (fun _ => h1)
    (fun _ => by rw [h42]; norm_num)
  simp only [h42, Fin.sum_const, show (2 : ℕ) • (42 : ℤ) = 84 by norm_num] at hv
  obtain ⟨g, -, hs⟩ := C135_shifted toyCurve_lawful h.pp _ _ hv (-1)
  exact ⟨ls.pp, _, _, _, hv, hs⟩

end PoL.Props
