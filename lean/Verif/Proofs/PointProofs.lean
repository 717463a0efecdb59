import Verif.Proofs.Vec
import Verif.Model.PointProofs

/-!
# Helper lemmas about the point-proof parameters
-/

set_option linter.unusedSectionVars false

namespace PoL.PP

variable {G1 G2 GT : Type} [AddCommGroup G1] [Module Zr G1] [AddCommGroup G2] [Module Zr G2]
  [AddCommGroup GT] [Module Zr GT]

section
variable (E : Curve G1 G2 GT) (α : Zr) (N : ℕ)

@[simp] theorem new_N : (newPublicParams E α N).N = N := rfl

theorem new_G1s : (newPublicParams E α N).G1s
    = (List.range N).map (fun k => α ^ (k + 1) • E.genG1) ++ [E.genG1]
      ++ (List.range (N - 1)).map (fun k => α ^ (N + 2 + k) • E.genG1) := rfl

theorem new_G2s : (newPublicParams E α N).G2s
    = (List.range N).map (fun k => α ^ (k + 1) • E.genG2) := rfl

@[simp] theorem new_Gt : (newPublicParams E α N).Gt = α ^ (N + 1) • E.genGt := rfl

theorem new_G1s_length (hN : 0 < N) : (newPublicParams E α N).G1s.length = 2 * N := by
  simp [new_G1s]; omega

theorem new_G2s_length : (newPublicParams E α N).G2s.length = N := by simp [new_G2s]

theorem new_G1s_lt {j : ℕ} (h : j < N) :
    (newPublicParams E α N).G1s[j]? = some (α ^ (j + 1) • E.genG1) := by
  rw [new_G1s, List.append_assoc, List.getElem?_append_left (by simpa using h)]
  simp [h]

theorem new_G1s_N : (newPublicParams E α N).G1s[N]? = some E.genG1 := by
  rw [new_G1s, List.append_assoc, List.getElem?_append_right (by simp)]
  simp

theorem new_G1s_gt {j : ℕ} (h : N < j) (h' : j < 2 * N) :
    (newPublicParams E α N).G1s[j]? = some (α ^ (j + 1) • E.genG1) := by
  rw [new_G1s, List.getElem?_append_right (by simp; omega)]
  simp only [List.length_append, List.length_map, List.length_range, List.length_cons, List.length_nil]
  rw [List.getElem?_map, List.getElem?_range (by omega)]
  simp only [Option.map_some]
  congr 3
  omega

theorem new_G1s_ne {j : ℕ} (h : N ≠ j) (h' : j < 2 * N) :
    (newPublicParams E α N).G1s[j]? = some (α ^ (j + 1) • E.genG1) := by
  rcases Nat.lt_or_gt_of_ne h with h | h
  · exact new_G1s_gt E α N h h'
  · exact new_G1s_lt E α N h

theorem new_G2s_lt {j : ℕ} (h : j < N) :
    (newPublicParams E α N).G2s[j]? = some (α ^ (j + 1) • E.genG2) := by
  simp [new_G2s, h]

/-- The first `N` bases. -/
theorem new_G1s_take : (newPublicParams E α N).G1s.take N
    = (List.range N).map (fun k => α ^ (k + 1) • E.genG1) := by
  rw [new_G1s, List.append_assoc, List.take_append_of_le_length (by simp)]
  simp

end

/-- The scalar in the exponent of a commitment: `Σ_j m_j α^(j+1)`. -/
def expo (α : Zr) (m : List Zr) : Zr := ∑ j ∈ Finset.range m.length, m.getD j 0 * α ^ (j + 1)

theorem dot_crs (g : G1) (α : Zr) (N : ℕ) (m : List Zr) (hm : m.length = N) :
    dot m ((List.range N).map fun k => α ^ (k + 1) • g) = expo α m • g := by
  rw [dot_eq_sum_range _ _ N hm (by simp), expo, Finset.sum_smul, hm]
  refine Finset.sum_congr rfl fun j hj => ?_
  rw [Finset.mem_range] at hj
  simp [List.getD, hj, mul_smul]

variable [DecidableEq G1] [DecidableEq GT]

theorem commit_eq_dot (E : Curve G1 G2 GT) (α : Zr) (N : ℕ) (m : List Zr) (hm : m.length = N)
    (hN : 0 < N) : commit (newPublicParams E α N) m
      = some (dot m ((List.range N).map fun k => α ^ (k + 1) • E.genG1)) := by
  rw [commit, new_N, if_neg (by simpa using hm),
    mapM_some _ (fun k => α ^ (k + 1) • E.genG1) _ (fun i hi =>
      new_G1s_lt E α N (by simpa using hi))]
  simp only [Option.bind_eq_bind, Option.bind_some]
  have hl : ((List.range N).map fun k => α ^ (k + 1) • E.genG1).length = m.length := by simp [hm]
  exact Gv.mulV_sum hl (by intro h; simp at h; omega)

theorem commit_eq (E : Curve G1 G2 GT) (α : Zr) (N : ℕ) (m : List Zr) (hm : m.length = N)
    (hN : 0 < N) : commit (newPublicParams E α N) m = some (expo α m • E.genG1) := by
  rw [commit_eq_dot E α N m hm hN, dot_crs _ _ _ _ hm]

/-- The exponent of an opening proof. -/
def openExpo (α : Zr) (N i : ℕ) (m : List Zr) : Zr :=
  ∑ j ∈ (Finset.range N).erase i, m.getD j 0 * α ^ (N - i + j + 1)

theorem openAt_eq (E : Curve G1 G2 GT) (α : Zr) (N : ℕ) (m : List Zr) (hm : m.length = N)
    (hN : 2 ≤ N) (i : ℕ) (hi : i < N) : openAt (newPublicParams E α N) i m
      = some (m.getD i 0, openExpo α N i m • E.genG1) := by
  rw [openAt, new_N, if_neg (by omega)]
  simp only [Option.bind_eq_bind, Option.pure_def]
  set js := (List.range N).filter fun j0 => j0 + 1 ≠ i + 1 with hjs
  have hmem : ∀ j ∈ js, j < N ∧ j ≠ i := by
    intro j hj
    simp only [hjs, List.mem_filter, List.mem_range, decide_eq_true_eq] at hj
    omega
  rw [mapM_some _ (fun j => α ^ (N - i + j + 1) • E.genG1) js]
  rotate_left
  · intro j hj
    obtain ⟨h1, h2⟩ := hmem j hj
    rw [new_G1s_ne E α N (by omega) (by omega)]
    congr 3
  simp only [Option.bind_some]
  rw [mapM_some _ (fun j => m.getD j 0) js]
  rotate_left
  · intro j hj
    obtain ⟨h1, h2⟩ := hmem j hj
    simp only [Nat.add_sub_cancel, List.getD]
    rw [List.getElem?_eq_getElem (by omega)]
    rfl
  simp only [Option.bind_some]
  rw [Gv.mulV_eq (by simp)]
  simp only [Option.bind_some]
  have hjne : js ≠ [] := by
    have : (if i = 0 then 1 else 0) ∈ js := by
      simp only [hjs, List.mem_filter, List.mem_range, decide_eq_true_eq]
      split <;> omega
    intro h; rw [h] at this; simp at this
  rw [Gv.sum_zipWith (by simp) (by simpa using hjne)]
  simp only [Option.bind_some]
  rw [List.getElem?_eq_getElem (by omega)]
  simp only [Option.bind_some, Option.some.injEq, Prod.mk.injEq]
  refine ⟨by simp [List.getD, hi, hm], ?_⟩
  have hnd : js.Nodup := List.Nodup.filter _ List.nodup_range
  have hset : js.toFinset = (Finset.range N).erase i := by
    ext j; simp [hjs, and_comm]
  rw [openExpo, ← hset, List.sum_toFinset _ hnd, dot]
  rw [List.zipWith_map, List.zipWith_self, List.sum_smul, List.map_map]
  simp [Function.comp_def, mul_smul]

theorem openExpo_add (α : Zr) (N i : ℕ) (m : List Zr) (hm : m.length = N) (hi : i < N) :
    openExpo α N i m + m.getD i 0 * α ^ (N + 1) = α ^ (N - i) * expo α m := by
  have h1 : m.getD i 0 * α ^ (N + 1) = m.getD i 0 * α ^ (N - i + i + 1) := by
    congr 2; omega
  rw [h1, openExpo, Finset.sum_erase_add _ _ (by simpa using hi), expo, Finset.mul_sum, hm]
  refine Finset.sum_congr rfl fun j _ => ?_
  rw [mul_left_comm, ← pow_add]
  congr 2

omit [DecidableEq G1] in
theorem verify_eq (E : Curve G1 G2 GT) (hE : E.Lawful) (α : Zr) (N : ℕ) (mi : Zr) (π C : G1) (i : ℕ)
    (hi : i < N) : verify E (newPublicParams E α N) mi π C i
      = some (decide (E.pair (α ^ (N - i) • C) E.genG2
          = E.pair (π + (mi * α ^ (N + 1)) • E.genG1) E.genG2)) := by
  rw [verify, new_N, if_neg (by omega), new_G2s_lt E α N (by omega)]
  simp only [Option.bind_eq_bind, Option.bind_some, pairProd_singleton, Option.pure_def, new_Gt,
    hE.genGt_eq]
  congr 2
  have h1 : N - i - 1 + 1 = N - i := by omega
  simp only [map_add, map_smul, LinearMap.add_apply, LinearMap.smul_apply, h1, mul_smul]

end PoL.PP
