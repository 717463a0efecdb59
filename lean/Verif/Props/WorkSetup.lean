import Verif.Props.WorkSet
import Verif.Props.PolParams

/-!
# C125: how many points the setup makes

`GeneratePublicParams` and `NewLiabilitySet` make a number of points that depends on the fan-out and the length of paths alone, and
`NewLiabilitySet` keeps none of those it makes.
-/

set_option linter.unusedSectionVars false

namespace PoL.Props

open Spec Ptr PoL.Pol PoL.BP

variable {G1 G2 GT : Type} [AddCommGroup G1] [Module Zr G1] [AddCommGroup G2] [Module Zr G2] [AddCommGroup GT] [Module Zr GT]
  [DecidableEq G1] [DecidableEq GT]

theorem costs_range {C α : Type} {n : ℕ} {f : ℕ → Run C α} (hf : ∀ i, Costs (f i) fun _ k => k = 1) :
    Costs ((List.range n).mapM f) fun rs k => k = n ∧ rs.length = n := by
  refine (costs_mapM (c := fun _ => 1) fun i _ => hf i).imp ?_
  rintro rs k ⟨rfl, h⟩
  simp [h]

theorem costs_newPublicParams (E : Curve G1 G2 GT) (gl : Globals) (α : Zr) (N : ℕ) (hN : 1 ≤ N) :
    Costs (Ptr.PP.newPublicParams E gl α N) fun _ n => n = 3 * N + 3 := by
  refine Costs.step (costs_copy _ _) fun _ => Costs.step (costs_copy _ _) fun _ => Costs.bind (costs_range fun _ => costs_mulBy _ _ _) ?_
  rintro low _ ⟨rfl, -⟩
  refine Costs.step (costs_copy _ _) fun _ => Costs.bind (costs_range fun _ => costs_mulBy _ _ _) ?_
  rintro high _ ⟨rfl, -⟩
  refine Costs.bind (costs_range fun _ => costs_mulBy _ _ _) ?_
  rintro g2s _ ⟨rfl, -⟩
  refine Costs.step (costs_mulBy _ _ _) fun _ => Costs.free (costs_loads _ _) fun _ => Costs.free (costs_loads _ _) fun _ =>
    Costs.free (costs_load _ _) fun _ => Costs.pure ?_
  omega

theorem costs_gens (E : Curve G1 G2 GT) (n : ℕ) (s : String) : Costs (Ptr.randGenVec E n s) fun rs k => k = n ∧ rs.length = n := by
  refine (costs_mapM (c := fun _ => 1) fun p _ => costs_new _ p).imp ?_
  rintro rs k ⟨rfl, h⟩
  rw [h]
  simp [PoL.randGenVec, Function.comp_def]

theorem costs_poeParams (E : Curve G1 G2 GT) (gl : Globals) (α : Zr) (N m : ℕ) (hN : 1 ≤ N) :
    Costs (Ptr.Pol.poeNewPublicParams E gl α N m) fun p n => n = 3 * N + 2 * m + 4 ∧ p.G.length = m := by
  refine Costs.step (costs_newPublicParams E gl α N hN) fun vc => Costs.bind (costs_gens E m _) ?_
  rintro G _ ⟨rfl, hG⟩
  refine Costs.step (Ptr.BP.costs_randGenVec E _ _) fun _ => Costs.step (Ptr.BP.costs_randGenVec E 1 _) fun _ => Costs.lift fun _ _ => ?_
  refine Costs.free (costs_loads _ _) fun _ => Costs.free (costs_loads _ _) fun _ => Costs.free (costs_load _ _) fun _ => Costs.pure ?_
  exact ⟨by omega, hG⟩

theorem costs_rangeParams (E : Curve G1 G2 GT) (n : ℕ) :
    Costs (Ptr.Pol.newRangeProofPublicParams E n) fun _ k => k = 129 * n + 3 := by
  refine Costs.step (Ptr.BP.costs_randGenVec E 1 _) fun _ => Costs.lift fun _ _ => Costs.step (Ptr.BP.costs_randGenVec E 1 _) fun _ => Costs.lift fun _ _ =>
    Costs.step (Ptr.BP.costs_randGenVec E 1 _) fun _ => Costs.lift fun _ _ => Costs.step (Ptr.BP.costs_randGenVec E _ _) fun _ =>
    Costs.step (Ptr.BP.costs_randGenVec E _ _) fun _ => Costs.step (Ptr.BP.costs_randGenVec E _ _) fun _ => ?_
  refine Costs.free (Ptr.BP.costs_getDigest E _) fun _ => Costs.pure ?_
  omega

theorem nonZero_all {v : List Zr} (h : ∀ x ∈ v, x ≠ 0) : nonZero v = v.length := by
  induction v with
  | nil => rfl
  | cons x v ih =>
    have h1 := h x (by simp)
    rw [nonZero, ih fun y hy => h y (by simp [hy]), if_neg h1, List.length_cons]
    omega

theorem nonZero_bVector {n : ℕ} {b : List Zr} (h : PoL.Sum.bVector n = some b) : nonZero b = n := by
  unfold PoL.Sum.bVector at h
  split at h
  · exact nomatch h
  obtain rfl := Option.some.inj h
  rw [nonZero_all]
  · simp
  · intro x hx
    rcases List.mem_or_eq_of_mem_set hx with hx | rfl
    · rw [(List.mem_replicate.1 hx).2]
      decide +kernel
    · decide +kernel

theorem costs_sumParams (E : Curve G1 G2 GT) (gl : Globals) (n : ℕ) :
    Costs (Ptr.Pol.sumNewPublicParams E gl n) fun _ k => k = 3 * n + 4 := by
  refine Costs.step (Ptr.BP.costs_randGenVec E _ _) fun _ => Costs.step (Ptr.BP.costs_randGenVec E 1 _) fun _ => Costs.lift fun _ _ =>
    Costs.step (Ptr.BP.costs_randGenVec E 1 _) fun _ => Costs.lift fun _ _ => Costs.step (Ptr.BP.costs_randGenVec E 1 _) fun _ => Costs.lift fun _ _ =>
    Costs.step (Ptr.BP.costs_randGenVec E _ _) fun _ => Costs.lift fun b hb => Costs.bind (Ptr.BP.costs_mulVSum gl _ b) ?_
  rintro B _ ⟨rfl, -⟩
  refine Costs.free (costs_loads _ _) fun _ => Costs.free (costs_load _ _) fun _ => Costs.free (costs_load _ _) fun _ =>
    Costs.free (costs_load _ _) fun _ => Costs.pure ?_
  rw [nonZero_bVector hb]
  omega

/-- **C125.** For a fan-out `F` below 65534, `GeneratePublicParams` makes `135F + 149` points, and two for each entry of the padded path. -/
theorem C125_setup_counts (E : Curve G1 G2 GT) (gl : Globals) (α : Zr) (fanOut : UInt16) (tt : TreeType) (hF : fanOut.toNat < 65534)
    {h h' : Mem (Cell G1 G2 GT)} {f : Str → Option (List ℕ)} {p : PublicParams Ref Ref Ref}
    (run : Ptr.Pol.generatePublicParams E gl α fanOut tt h = some ((f, p), h')) :
    made h h' = 135 * fanOut.toNat + 149 + 2 * p.POEPP.G.length := by
  have e2 : (fanOut + 2).toNat = fanOut.toNat + 2 := by
    rw [UInt16.toNat_add]
    exact Nat.mod_eq_of_lt (by show fanOut.toNat + 2 < 65536; omega)
  have e1 : (fanOut + 1).toNat = fanOut.toNat + 1 := by
    rw [UInt16.toNat_add]
    exact Nat.mod_eq_of_lt (by show fanOut.toNat + 1 < 65536; omega)
  refine made_of_costs (P := fun r n => n = 135 * fanOut.toNat + 149 + 2 * r.2.POEPP.G.length) ?_ run
  refine Costs.lift fun r _ => Costs.lift fun m _ => Costs.bind (costs_poeParams E gl α _ m.toNat (by omega)) ?_
  rintro poe _ ⟨rfl, hG⟩
  refine Costs.step (costs_sumParams E gl _) fun _ => Costs.step (costs_rangeParams E _) fun _ => Costs.lift fun _ _ => Costs.pure ?_
  dsimp only
  rw [hG, e1, e2]
  omega

/-- **C125.** `NewLiabilitySet` makes `3F + 9` points, and uses none of them: the set is the same whatever the memory, the scalar
drawn for them, and the curve are. -/
theorem C125_new_set_counts (E : Curve G1 G2 GT) (gl : Globals) (α : Zr) (p : PublicParams Ref Ref Ref) (hF : p.fanout < 65534) (db : Verkle.Db)
    (f : Str → Option (List ℕ)) {h h' : Mem (Cell G1 G2 GT)} {ls : LiabilitySet Ref Ref Ref}
    (run : Ptr.Pol.newLiabilitySet E gl α p db f h = some (ls, h')) :
    made h h' = 3 * p.fanout + 9 ∧ ls = ⟨⟨p.PPPP, p.fanout, f, none⟩, p, [], ⟨db, 0⟩⟩ := by
  have e0 : (UInt16.ofNat p.fanout).toNat = p.fanout := by rw [UInt16.toNat_ofNat']; exact Nat.mod_eq_of_lt (by omega)
  have e2 : (UInt16.ofNat p.fanout + 2).toNat = p.fanout + 2 := by
    rw [UInt16.toNat_add, e0]
    exact Nat.mod_eq_of_lt (by show p.fanout + 2 < 65536; omega)
  refine made_of_costs (P := fun r n => n = 3 * p.fanout + 9 ∧ r = ⟨⟨p.PPPP, p.fanout, f, none⟩, p, [], ⟨db, 0⟩⟩) ?_ run
  refine Costs.step (costs_newPublicParams E gl α _ (by omega)) fun _ => Costs.pure ⟨by omega, ?_⟩
  rw [e0]

theorem padded_le {m M : ℕ} (hm : 1 ≤ m) (h : IsPadded m M) : M ≤ 2 * m := by
  obtain ⟨⟨j, j1, -, rfl⟩, -, hmin⟩ := h
  rcases Nat.lt_or_ge j 2 with hj | hj
  · have : j = 1 := by omega
    subst this
    omega
  · by_contra hc
    have e : 2 ^ j = 2 * 2 ^ (j - 1) := by rw [← pow_succ']; congr 1; omega
    have h1 : m ≤ 2 ^ (j - 1) := by omega
    have h2 := hmin (j - 1) (by omega) h1
    have h3 := Nat.one_le_two_pow (n := j - 1)
    omega

/-- **C125.** The setup for fan-out `F` and paths of length `L` makes at most `135F + 4L + 145` points. -/
theorem C125_setup_is_linear {E : Curve G1 G2 GT} {gl : Globals} {h : Mem (Cell G1 G2 GT)} (hg : GlobalsAt E h gl) (α : Zr)
    (fanOut : UInt16) (tt : TreeType) {f : Str → Option (List ℕ)} {q : PublicParams G1 G2 GT} {L : ℕ}
    (hq : PoL.Pol.generatePublicParams E α fanOut tt = some (f, q)) (hfit : Fits E α fanOut.toNat L q) :
    ∃ p h', Ptr.Pol.generatePublicParams E gl α fanOut tt h = some ((f, p), h') ∧ Keeps h h' ∧ PubAt h' p q ∧
      made h h' ≤ 135 * fanOut.toNat + 4 * L + 145 := by
  have a := Ptr.Pol.agrees_generatePublicParams hg α fanOut tt
  rw [hq] at a
  obtain ⟨⟨f', p⟩, h', run, hk', hf, hp⟩ := agrees_some a
  obtain rfl : f' = f := hf
  obtain ⟨M, hM, hG, -⟩ := hfit.poe_size
  obtain ⟨k, -, hk, hF⟩ := hfit.power
  have hL := hfit.depth
  have h1 := C125_setup_counts E gl α fanOut tt (by have := Nat.pow_le_pow_right (n := 2) (by norm_num) hk; omega) run
  have h2 : p.POEPP.G.length = M := by rw [← hG]; exact hp.POEPP.G.length_eq
  have h3 := padded_le (by omega) hM
  exact ⟨p, h', run, hk', hp, by omega⟩

/-- Parameters for dense trees of fan-out 3 over the toy curve, and a set for them: the calls return, and the first makes at most 626
points (paths have 19 entries), the second 18. -/
example : ∃ (h h' h'' : Mem (Cell Zr Zr Zr)) (gl : Globals) (f : Str → Option (List ℕ)) (p : PublicParams Ref Ref Ref)
    (ls : LiabilitySet Ref Ref Ref), Ptr.Pol.generatePublicParams toyCurve gl 2 3 .dense h = some ((f, p), h') ∧
      Ptr.Pol.newLiabilitySet toyCurve gl 3 p (fun _ => []) f h' = some (ls, h'') ∧ made h h' ≤ 550 + 4 * 19 ∧ made h' h'' = 18 := by
  obtain ⟨f, hf⟩ := (C30_supported_fanouts 3).2 ⟨2, by norm_num, by norm_num, by decide⟩
  obtain ⟨L, q, hL, hq, hfit⟩ := C54_dense toyCurve 2 3 f hf (by decide)
  obtain ⟨gl, m₀, -, -, g0⟩ := agrees_some (wp_initGlobals (E := toyCurve) ⟨[], []⟩)
  obtain ⟨p, h', run, hk, hp, hle⟩ := C125_setup_is_linear g0 2 3 .dense hq hfit
  have hF : p.fanout = 3 := by rw [hp.fanout, hfit.fanout]; rfl
  obtain ⟨ls, h'', run', -⟩ := agrees_some (Ptr.Pol.agrees_newLiabilitySet (g0.mono hk) 3 hp (fun _ => []) f)
  obtain ⟨L', hL', -, -, hmin⟩ := C32_digit_path_len 3 (by decide)
  obtain rfl : L' = L := Option.some.inj (hL'.symm.trans hL)
  have h19 := hmin 19 (by norm_num) (by show 10 ^ 9 < 3 ^ 19; norm_num)
  have h18 := (C125_new_set_counts toyCurve gl 3 p (by omega) _ f run').1
  have h3 : (3 : UInt16).toNat = 3 := rfl
  exact ⟨m₀, h', h'', gl, f, p, ls, run, run', by omega, by omega⟩

end PoL.Props
