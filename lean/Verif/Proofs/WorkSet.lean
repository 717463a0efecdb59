import Mathlib.Tactic.Linarith
import Verif.Proofs.WorkVerify

/-!
# Counting points: the liability set
-/

set_option linter.unusedSectionVars false

namespace PoL.Ptr

open Spec

variable {G1 G2 GT : Type} [AddCommGroup G1] [Module Zr G1] [AddCommGroup G2] [Module Zr G2] [AddCommGroup GT] [Module Zr GT]
  [DecidableEq G1]

theorem ipaProveWork_le (L : ℕ) : ipaProveWork L ≤ 15 * L := by
  induction L using Nat.strongRecOn with
  | ind L ih =>
    rw [ipaProveWork]
    split
    · omega
    · have := ih (L / 2) (by omega)
      omega

theorem reduceWork_le (L : ℕ) : reduceWork L ≤ 5 * L := by
  induction L using Nat.strongRecOn with
  | ind L ih =>
    rw [reduceWork]
    split
    · omega
    · have := ih (L / 2) (by omega)
      omega

theorem rangeWork_le (n : ℕ) : rangeWork n ≤ 1732 * n + 25 := by
  have h1 := reduceWork_le n
  have h2 := ipaProveWork_le (64 * n)
  have h3 := ipaVerifyWork_le (64 * n)
  rw [rangeWork]
  omega

theorem foldNonZero_le' (xs : List Zr) : ∀ (n : ℕ) (v : List Zr), foldNonZero n v xs ≤ 3 * v.length := by
  induction xs with
  | nil => intro n v; exact Nat.zero_le _
  | cons x xs ih =>
    intro n v
    have h1 := ih (n / 2) (halve n v x)
    have h2 := nonZero_le_length (halve n v x)
    have h3 := nonZero_le_length (v.take n)
    have h4 := nonZero_le_length (v.drop n)
    rw [foldNonZero]
    simp only [halve, List.length_zipWith, List.length_take, List.length_drop] at *
    omega

theorem costs_proveRange_le (E : Curve G1 G2 GT) (gl : Globals) (pp : PoL.BP.RPPP Ref) (rnd : PoL.BP.RangeRand)
    (hr : rnd.WellFormed pp.Gs.length) (V : Ref) (v : List Zr) (r : Zr)
    (hHs : pp.Hs.length = 64 * pp.Gs.length) (hne : pp.Gs ≠ []) :
    Costs (BP.proveRange E gl pp rnd V v r) fun _ n => n ≤ 1928 * pp.Gs.length + 25 := by
  refine (BP.costs_proveRange E gl pp rnd V v r hHs hne).imp ?_
  rintro _ _ ⟨x, y, xs, rfl⟩
  have h0 := rangeWork_le pp.Gs.length
  have h1 := nonZero_le_length rnd.w
  have h2 := nonZero_le_length rnd.s
  have h3 := nonZero_le_length rnd.t
  have h4 := nonZero_le_length (powerSeries (64 * pp.Gs.length) y⁻¹)
  have h5 := foldNonZero_le' xs (pp.Gs.length / 2) (List.zipWith (fun a b => a + b * x) v rnd.w)
  obtain ⟨h6, h7, h8⟩ := hr
  rw [powerSeries_length] at h4
  rw [List.length_zipWith] at h5
  omega

namespace PP

theorem costs_commit_le (gl : Globals) (pp : PoL.PP Ref Ref Ref) (m : List Zr) :
    Costs (commit gl pp m : Run (Cell G1 G2 GT) Ref) fun _ n => n ≤ pp.N + 1 ∧ m.length = pp.N := by
  by_cases hm : m.length = pp.N
  · refine (costs_commit gl pp m).imp fun _ n h => ⟨?_, hm⟩
    have := nonZero_le_length m
    omega
  · unfold commit
    rw [if_pos hm]
    exact Costs.crash

theorem costs_openAt_le (gl : Globals) (pp : PoL.PP Ref Ref Ref) (i : ℕ) (m : List Zr) :
    Costs (openAt gl pp i m : Run (Cell G1 G2 GT) _) fun _ n => n ≤ pp.N := by
  unfold openAt
  split
  · exact Costs.crash
  · rename_i hi
    refine Costs.lift fun _ _ => Costs.lift fun es hes => Costs.bind (costs_mulV _ _ _ _) ?_
    rintro _ _ ⟨rfl, -, -⟩
    refine Costs.step (costs_sum _ _) fun _ => Costs.lift fun _ _ => Costs.pure ?_
    have h1 := nonZero_le_length es
    have h2 := Pol.mapM_length hes
    have h3 : ((List.range pp.N).filter fun j => j + 1 ≠ i + 1).length < pp.N := by
      conv_rhs => rw [← List.length_range (n := pp.N)]
      exact List.length_filter_lt_length_iff_exists.2 ⟨i, List.mem_range.2 (by omega), by simp⟩
    omega

theorem costs_aggregate (E : Curve G1 G2 GT) (pp : PoL.PP Ref Ref Ref) (cs ps : List Ref) :
    Costs (aggregate E pp cs ps) fun _ n => n = ps.length + 1 := by
  unfold aggregate
  split
  · exact Costs.crash
  · refine Costs.bind (costs_mapM (c := fun _ => 1) fun j _ => ?_) ?_
    · exact Costs.free (costs_ro E pp cs j) fun _ => Costs.lift fun _ _ => costs_mulBy _ _ _
    · rintro _ _ ⟨rfl, -⟩
      exact (costs_sum _ _).imp (by rintro _ _ rfl; simp)

theorem costs_update (pp : PoL.PP Ref Ref Ref) (C : Ref) (m : List Zr) (mi : Zr) (i : ℕ) :
    Costs (update pp C m mi i : Run (Cell G1 G2 GT) Unit) fun _ n => n = 2 := by
  refine Costs.lift fun _ _ => Costs.lift fun _ _ => Costs.step (costs_mulBy _ _ _) fun _ => Costs.step (costs_mulBy _ _ _) fun _ => ?_
  exact Costs.free (costs_subFrom _ _ _) fun _ => (costs_addTo _ _ _).imp (by rintro _ _ rfl; rfl)

end PP

namespace Sum

theorem costs_newAggregatedArgument (E : Curve G1 G2 GT) (gl : Globals) (pp : PoL.Sum.PP Ref) (rnd : PoL.Sum.Rand) (V : List Ref)
    (v : List (List Zr)) (r : List Zr) :
    Costs (newAggregatedArgument E gl pp rnd V v r) fun _ n => n ≤ V.length + 18 * pp.Gs.length + 8 := by
  refine Costs.free (costs_challenge E _ _) fun t => Costs.lift fun _ _ => Costs.lift fun vA _ => Costs.lift fun _ _ => ?_
  refine Costs.bind (costs_mulVSum_le _ _ _) ?_
  intro VA k1 h1
  refine Costs.bind (P := fun _ n => n ≤ 18 * pp.Gs.length + 7) ?_ fun _ k h => Costs.pure (by omega)
  refine Costs.step (costs_mulBy _ _ _) fun _ => Costs.bind (BP.costs_mulVSum _ _ _) ?_
  rintro _ _ ⟨rfl, hw⟩
  have hw' := nonZero_le_length rnd.w
  refine Costs.free (costs_addTo _ _ _) fun _ => Costs.lift fun _ _ => ?_
  refine Costs.free (Costs.free (costs_load _ _) fun _ => Costs.free (costs_load _ _) fun _ => costs_lift) fun x => ?_
  refine Costs.step (costs_mulBy _ _ _) fun _ => Costs.free (costs_addTo _ _ _) fun _ => Costs.step (costs_mulBy _ _ _) fun _ => ?_
  refine Costs.free (costs_addTo _ _ _) fun _ => Costs.free (costs_addTo _ _ _) fun _ => Costs.bind (BP.costs_setupDigest E _) ?_
  rintro ipaPP _ ⟨rfl, hG, -⟩
  refine Costs.lift fun a ha => Costs.bind (BP.costs_newInnerProdArgument _ _ _) ?_
  rintro arg _ ⟨rfl, harg⟩
  refine Costs.bind (BP.costs_ipaProve E _) ?_
  rintro _ _ ⟨rfl, -⟩
  refine Costs.pure ?_
  obtain ⟨hl, rfl⟩ := BP.vecAdd_some ha
  rw [harg, hG]
  have h2 := ipaProveWork_le pp.Gs.length
  simp only [Vec.mul, List.length_map, List.length_zipWith] at hl ⊢
  omega

end Sum

namespace Poe

theorem costs_proveStep (gl : Globals) (pp : PoL.PP Ref Ref Ref) (n : ℕ) (u η ν : Zr) (I J : ℕ) (v w : List Zr) :
    Costs (proveStep gl pp n u η ν I J v w : Run (Cell G1 G2 GT) _) fun _ k => k ≤ 2 * pp.N + 6 := by
  unfold proveStep
  split
  · exact Costs.crash
  · refine Costs.lift fun _ _ => Costs.step (costs_mulBy _ _ _) fun _ => Costs.lift fun _ _ => Costs.step (costs_mulBy _ _ _) fun _ => ?_
    refine Costs.free (costs_addTo _ _ _) fun _ => Costs.lift fun _ _ => Costs.step (costs_mulBy _ _ _) fun _ => ?_
    refine Costs.lift fun _ _ => Costs.step (costs_mulBy _ _ _) fun _ => Costs.lift fun _ _ => Costs.step (costs_mulBy _ _ _) fun _ => ?_
    refine Costs.free (costs_addTo _ _ _) fun _ => Costs.lift fun _ _ => Costs.step (costs_mulBy _ _ _) fun _ => ?_
    refine Costs.bind (PP.costs_openAt_le gl _ _ _) ?_
    intro _ k1 h1
    refine Costs.bind (PP.costs_openAt_le gl _ _ _) ?_
    intro _ k2 h2
    exact Costs.pure (by omega)

end Poe

theorem costs_mapM_le {C α ι : Type} {f : ι → Run C α} {B : ℕ} : ∀ {l : List ι}, (∀ i ∈ l, Costs (f i) fun _ n => n ≤ B) →
    Costs (l.mapM f) fun rs n => n ≤ l.length * B ∧ rs.length = l.length
  | [], _ => by
    rw [List.mapM_nil]
    exact Costs.pure ⟨by simp, rfl⟩
  | i :: l, hl => by
    rw [List.mapM_cons]
    refine Costs.bind (hl i (by simp)) fun a n hn => ?_
    refine Costs.bind (costs_mapM_le fun j hj => hl j (by simp [hj])) ?_
    rintro as k ⟨hk, hlen⟩
    refine Costs.pure ⟨?_, by simp [hlen]⟩
    rw [List.length_cons, Nat.succ_mul]
    omega

namespace Poe

theorem eqs_arith {k0 k1 k2 k3 k4 k5 A I K m g hh : ℕ} (h0 : k0 ≤ K) (h1 : k1 ≤ g + 1) (h2 : k2 ≤ g + 1) (h3 : k3 ≤ m + 1)
    (h4 : k4 ≤ m + 1) (h5 : k5 ≤ hh + 1) (h6 : I ≤ 15 * g) (h7 : A ≤ m) :
    k0 + (1 + (k1 + (1 + (k2 + (m + (m + (k3 + (m + (m + (k4 + (1 + (1 + (k5 + (1 + (2 * A + (3 + I + 0)))))))))))))))) ≤
      K + 8 * m + 17 * g + hh + 13 := by
  linarith

theorem costs_eqsProve (E : Curve G1 G2 GT) (gl : Globals) (RO : PoL.Poe.ROFun G1) (e : PoL.Poe.Equalities Ref Ref Ref)
    (rnd : PoL.Poe.EqsRand) (vs ws : List (List Zr)) :
    Costs (eqsProve E gl RO e rnd vs ws) fun _ n =>
      n ≤ e.V.length * (2 * e.PP.vc.N + 6) + 8 * e.V.length + 17 * e.PP.G.length + e.PP.H.length + 13 := by
  unfold eqsProve
  dsimp only
  split
  · exact Costs.crash
  split
  · exact Costs.crash
  split
  · exact Costs.crash
  refine Costs.lift fun v0 _ => Costs.bind (costs_mapM_le (B := 2 * e.PP.vc.N + 6) fun k _ => ?_) ?_
  · exact Costs.lift fun _ _ => Costs.lift fun _ _ => Costs.lift fun _ _ => Costs.lift fun _ _ => Costs.lift fun _ _ =>
      costs_proveStep gl _ _ _ _ _ _ _ _ _
  rintro steps k0 ⟨h0, hst⟩
  rw [List.length_range] at h0 hst
  generalize e.V.length * (2 * e.PP.vc.N + 6) = K at h0 ⊢
  refine Costs.free (costs_callRO _ _ _ _ _) fun _ => Costs.lift fun x _ => Costs.lift fun v hv => ?_
  refine Costs.step (costs_mulBy _ _ _) fun U => Costs.bind (costs_mulVSum_le _ _ _) ?_
  intro _ k1 h1
  refine Costs.free (costs_addTo _ _ _) fun _ => Costs.step (costs_mulBy _ _ _) fun V => Costs.bind (costs_mulVSum_le _ _ _) ?_
  intro _ k2 h2
  refine Costs.free (costs_addTo _ _ _) fun _ => Costs.free (costs_callRO _ _ _ _ _) fun ts => Costs.bind (costs_mul _ _ _) ?_
  rintro _ _ ⟨rfl, -⟩
  refine Costs.bind (costs_add _ _ _) ?_
  rintro ωv _ ⟨rfl, hωv, -⟩
  refine Costs.lift fun _ _ => Costs.bind (costs_mulVSum_le _ _ _) ?_
  intro _ k3 h3
  refine Costs.bind (costs_mul _ _ _) ?_
  rintro _ _ ⟨rfl, -⟩
  refine Costs.bind (costs_add _ _ _) ?_
  rintro ωw _ ⟨rfl, hωw, -⟩
  refine Costs.lift fun _ _ => Costs.bind (costs_mulVSum_le _ _ _) ?_
  intro _ k4 h4
  refine Costs.free (costs_addTo _ _ _) fun _ => Costs.lift fun a ha => Costs.lift fun _ _ => Costs.lift fun _ _ => Costs.lift fun b _ => ?_
  refine Costs.step (costs_mulBy _ _ _) fun P => Costs.step (costs_mulBy _ _ _) fun _ => Costs.free (costs_addTo _ _ _) fun _ => ?_
  refine Costs.free (costs_addTo _ _ _) fun _ => Costs.bind (costs_mulVSum_le _ _ _) ?_
  intro _ k5 h5
  refine Costs.free (costs_addTo _ _ _) fun _ => ?_
  refine Costs.bind (P := fun q n => n = 1 ∧ q.G = e.PP.G) ?_ ?_
  · refine Costs.step (BP.costs_randGenVec E 1 _) fun u => Costs.lift fun U _ => (BP.costs_setupDigest E _).imp ?_
    rintro p n ⟨rfl, h, -⟩
    exact ⟨rfl, h⟩
  rintro bpPP _ ⟨rfl, hG⟩
  refine Costs.bind (BP.costs_newInnerProdArgument _ _ _) ?_
  rintro arg _ ⟨rfl, harg⟩
  refine Costs.bind (BP.costs_ipaProve E _) ?_
  rintro _ _ ⟨rfl, -⟩
  refine Costs.pure ?_
  dsimp only
  rw [harg, hG]
  have hvl := Pol.mapM_length hv
  obtain ⟨hl, rfl⟩ := BP.vecAdd_some ha
  have h6 := ipaProveWork_le e.PP.G.length
  have h7 : (List.zipWith (fun x1 x2 => x1 + x2) (Vec.mul (List.map (fun t => t.1) (List.take e.V.length rnd.uην)) x) v).length ≤
      e.V.length := by
    rw [List.length_zipWith, hvl, List.length_range]
    exact Nat.min_le_right _ _
  rw [List.length_map, hst] at hωv hωw
  simp only [List.length_map, hst]
  rw [hωv] at h3
  rw [hωw] at h4
  exact eqs_arith h0 h1 h2 h3 h4 h5 h6 h7

end Poe

namespace Verkle

open PoL.Verkle

theorem costs_fromBytes (E : Curve G1 G2 GT) (b : Bytes) : Costs (fromBytes E b) fun _ n => n ≤ 2 := by
  refine Costs.lift fun rv _ => Costs.lift fun _ _ => Costs.step (costs_new _ _) fun V => Costs.lift fun w _ => ?_
  refine Costs.bind (P := fun _ n => n ≤ 1) ?_ fun W k hk => Costs.lift fun _ _ => Costs.lift fun _ _ => Costs.pure (by omega)
  cases w with
  | none => exact Costs.pure (by omega)
  | some w => exact Costs.step (costs_new _ _) fun _ => Costs.pure (by omega)

theorem costs_loadVertex (v : Vertex Ref) : Costs (loadVertex v : Run (Cell G1 G2 GT) _) fun _ n => n = 0 := by
  refine Costs.free (costs_load _ _) fun _ => Costs.free ?_ fun _ => Costs.pure rfl
  unfold loadOpt
  split
  · exact Costs.pure rfl
  · exact Costs.free (costs_load _ _) fun _ => Costs.pure rfl

theorem costs_digest (E : Curve G1 G2 GT) (v : Vertex Ref) : Costs (digest E v) fun _ n => n = 0 :=
  Costs.free (costs_loadVertex v) fun _ => costs_lift

theorem costs_store (E : Curve G1 G2 GT) (env : Env) (key : Str) (v : Vertex Ref) (s : State) :
    Costs (store E env key v s) fun _ n => n = 0 :=
  Costs.free (costs_loadVertex v) fun _ => Costs.pure rfl

theorem costs_fetchVertex (E : Curve G1 G2 GT) (db : Db) (d : Option Data) : Costs (fetchVertex E db d) fun _ n => n ≤ 2 := by
  refine Costs.lift fun _ _ => Costs.lift fun _ _ => ?_
  split
  · exact Costs.crash
  · exact costs_fromBytes E _

theorem costs_innerLoop (E : Curve G1 G2 GT) (db : Db) : ∀ (l : List (Option Data)) (i : ℕ) (a : InnerAcc),
    Costs (innerLoop E db l i a) fun r n => n ≤ 2 * l.length ∧ r.m.length = a.m.length + l.length
  | [], i, a => Costs.pure ⟨by simp, by simp⟩
  | none :: t, i, a => by
    rw [innerLoop]
    refine (costs_innerLoop E db t _ _).imp ?_
    rintro r n ⟨h1, h2⟩
    simp only [List.length_append, List.length_cons, List.length_nil] at *
    omega
  | some d :: t, i, a => by
    rw [innerLoop]
    refine Costs.bind (costs_fetchVertex E db _) fun v k hk => Costs.free (costs_digest E v) fun _ => ?_
    refine (costs_innerLoop E db t _ _).imp ?_
    rintro r n ⟨h1, h2⟩
    simp only [List.length_append, List.length_cons, List.length_nil] at *
    omega

theorem costs_updateInnerLayer (E : Curve G1 G2 GT) (gl : Globals) (vc : PoL.PP Ref Ref Ref) (env : Env) (key : Str) (node : Option Data)
    (ds : List (Option Data)) (index : ℕ) (s : State) (hN : 4 ≤ vc.N) :
    Costs (updateInnerLayer E gl vc env key node ds index s) fun _ n => n + 2 ≤ 4 * vc.N := by
  unfold updateInnerLayer
  split
  · dsimp only
    refine Costs.bind (costs_innerLoop E _ _ _ _) ?_
    rintro a k1 ⟨h1, h2⟩
    refine Costs.bind (PP.costs_commit_le gl _ _) ?_
    rintro V k2 ⟨h3, h4⟩
    refine Costs.bind (PP.costs_commit_le gl _ _) ?_
    rintro W k3 ⟨h5, -⟩
    refine Costs.free (costs_store E _ _ _ _) fun _ => Costs.pure ?_
    simp only [List.length_append, List.length_cons, List.length_nil] at *
    omega
  · dsimp only
    refine Costs.bind (costs_fetchVertex E _ _) fun v k1 h1 => Costs.lift fun _ _ => Costs.bind (costs_fetchVertex E _ _) fun d k2 h2 => ?_
    refine Costs.free (costs_digest E _) fun _ => Costs.lift fun _ _ => ?_
    split
    · exact Costs.crash
    · refine Costs.bind (PP.costs_commit_le gl _ _) ?_
      rintro V k3 ⟨h3, -⟩
      refine Costs.bind (PP.costs_commit_le gl _ _) ?_
      rintro W k4 ⟨h4, -⟩
      exact Costs.free (costs_store E _ _ _ _) fun _ => Costs.pure (by omega)

theorem costs_updateLayerAboveLeaves (E : Curve G1 G2 GT) (gl : Globals) (vc : PoL.PP Ref Ref Ref) (env : Env) (key : Str)
    (node : Option Data) (ds : List (Option Data)) (index : ℕ) (s : State) (hN : 4 ≤ vc.N) :
    Costs (updateLayerAboveLeaves E gl vc env key node ds index s) fun _ n => n + 2 ≤ 4 * vc.N := by
  unfold updateLayerAboveLeaves
  split
  · dsimp only
    refine Costs.lift fun _ _ => Costs.bind (PP.costs_commit_le gl _ _) ?_
    rintro V k1 ⟨h1, -⟩
    exact Costs.free (costs_store E _ _ _ _) fun _ => Costs.pure (by omega)
  · dsimp only
    refine Costs.bind (costs_fetchVertex E _ _) fun v k1 h1 => Costs.lift fun _ _ => Costs.lift fun _ _ => Costs.lift fun _ _ => ?_
    refine Costs.step (PP.costs_update _ _ _ _ _) fun _ => Costs.step (PP.costs_update _ _ _ _ _) fun _ => ?_
    exact Costs.free (costs_store E _ _ _ _) fun _ => Costs.pure (by omega)

theorem putAt_cost {D σ : Type} {B : ℕ} {size : σ → ℕ} {u : Sparse.Update D σ}
    (hu : ∀ key node raw b i s r s', u key node raw b i s = some (r, s') → size s ≤ size s' ∧ size s' ≤ size s + B) (fanOut : ℕ)
    (data : Option D) : ∀ (path : List ℕ) (ps : Str) (v : Sparse.Vertex D) (s : σ) (v' : Sparse.Vertex D) (s' : σ),
      Sparse.putAt fanOut u data path ps v s = some (v', s') → size s ≤ size s' ∧ size s' ≤ size s + path.length * B := by
  intro path
  induction path with
  | nil =>
    intro ps v s v' s' e
    obtain ⟨-, rfl⟩ := Prod.mk.inj (Option.some.inj e)
    simp
  | cons p rest ih =>
    intro ps v s v' s' e
    simp only [Sparse.putAt, Option.bind_eq_bind, Option.bind_eq_some_iff] at e
    obtain ⟨⟨c, s1⟩, e1, raw, -, ⟨d, s2⟩, e2, e3⟩ := e
    obtain ⟨-, rfl⟩ := Prod.mk.inj (Option.some.inj e3)
    have h1 := ih _ _ _ _ _ e1
    have h2 := hu _ _ _ _ _ _ _ _ e2
    rw [List.length_cons, Nat.succ_mul]
    simp only at h1 h2 ⊢
    omega

theorem costs_put (E : Curve G1 G2 GT) (gl : Globals) (env : Env) (t : Tree Ref Ref Ref) (id : Str) (data : ℤ) (s : State)
    (hN : 4 ≤ t.PP.N) (path : List ℕ) (hp : t.id2Path id = some path) :
    Costs (put E gl env t id data s) fun _ n => n ≤ path.length * (4 * t.PP.N - 2) := by
  intro h a h' e
  simp only [put, Sparse.Tree.put, Option.bind_eq_bind, Option.bind_eq_some_iff] at e
  obtain ⟨r, ⟨path', hp', ⟨root, s1⟩, e1, e2⟩, e3⟩ := e
  obtain rfl : path = path' := Option.some.inj (hp.symm.trans hp')
  rw [← Option.some.inj e2] at e3
  obtain ⟨-, rfl⟩ := Prod.mk.inj (Option.some.inj e3)
  have := putAt_cost (B := 4 * t.PP.N - 2) (size := fun s : State × Mem (Cell G1 G2 GT) => s.2.cells.length) ?_ _ _ _ _ _ _ _ _ e1
  · exact ⟨s1.2.cells.length - h.cells.length, by simp only at this ⊢; omega, by simp only at this ⊢; omega⟩
  · intro key node raw b i s r s' e
    simp only [sparse, updateInnerVertex, Option.bind_eq_bind, Option.bind_eq_some_iff] at e
    obtain ⟨⟨⟨x, y⟩, m⟩, e1, e2⟩ := e
    obtain ⟨-, rfl⟩ := Prod.mk.inj (Option.some.inj e2)
    cases b with
    | true =>
      obtain ⟨n, h1, h2⟩ := costs_updateLayerAboveLeaves E gl t.PP env key node raw i s.1 hN _ _ _ e1
      simp only
      omega
    | false =>
      obtain ⟨n, h1, h2⟩ := costs_updateInnerLayer E gl t.PP env key node raw i s.1 hN _ _ _ e1
      simp only
      omega

theorem getAt_length {D : Type} : ∀ (path : List ℕ) (v : Sparse.Vertex D) (d : Option D) (vs : List (Sparse.Vertex D)),
    Sparse.getAt path v = some (d, vs) → vs.length = path.length
  | [], v, d, vs, e => by
    obtain ⟨-, rfl⟩ := Prod.mk.inj (Option.some.inj e)
    rfl
  | p :: rest, v, d, vs, e => by
    rw [Sparse.getAt] at e
    split at e
    · exact nomatch e
    · split at e
      · exact nomatch e
      · rename_i d' vs' e'
        obtain ⟨-, rfl⟩ := Prod.mk.inj (Option.some.inj e)
        rw [List.length_cons, List.length_cons, getAt_length _ _ _ _ e']

theorem costs_get (E : Curve G1 G2 GT) (gl : Globals) (env : Env) (t : Tree Ref Ref Ref) (id : Str) (db : Db) (path : List ℕ)
    (hp : t.id2Path id = some path) :
    Costs (get E gl env t id db) fun r n => n ≤ path.length * 2 ∧ ∀ x vs, r = some (x, vs) → vs.length = path.length := by
  refine Costs.lift fun r hr => ?_
  rcases r with _ | ⟨n, vs⟩
  · exact Costs.pure ⟨by omega, by simp⟩
  · have hl : vs.length = path.length := by
      simp only [Sparse.Tree.get, sparse, hp, Option.bind_eq_bind, Option.bind_some] at hr
      split at hr
      · exact nomatch (Option.some.inj hr)
      · exact getAt_length _ _ _ _ (Option.some.inj hr)
    dsimp only
    refine Costs.bind (costs_mapM_le (B := 2) fun u _ => ?_) ?_
    · exact Costs.lift fun _ _ => Costs.lift fun _ _ => costs_fromBytes E _
    · rintro us k ⟨hk, hus⟩
      refine Costs.lift fun _ _ => Costs.lift fun _ _ => Costs.pure ⟨by omega, ?_⟩
      intro x vs' e
      obtain ⟨-, rfl⟩ := Prod.mk.inj (Option.some.inj e)
      omega

end Verkle

namespace Pol

open PoL.Pol PoL.Verkle

theorem costs_set (E : Curve G1 G2 GT) (gl : Globals) (env : Env) (ls : LiabilitySet Ref Ref Ref) (id : Str) (x : ℤ)
    (hN : 4 ≤ ls.tree.PP.N) (path : List ℕ) (hp : ls.tree.id2Path id = some path) :
    Costs (set E gl env ls id x) fun _ n => n ≤ path.length * (4 * ls.tree.PP.N - 2) := by
  unfold set
  split
  · exact Costs.crash
  · exact Costs.bind (Verkle.costs_put E gl env _ id x _ hN path hp) fun _ k h => Costs.pure (by omega)

theorem costs_root (E : Curve G1 G2 GT) (ls : LiabilitySet Ref Ref Ref) : Costs (root E ls) fun _ n => n ≤ 2 := by
  unfold root
  split
  · exact Costs.pure (by omega)
  · exact Costs.lift fun _ _ => Costs.lift fun _ _ => Costs.bind (Verkle.costs_fromBytes E _) fun _ k h => Costs.pure (by omega)

theorem costs_proveTot (E : Curve G1 G2 GT) (gl : Globals) (ls : LiabilitySet Ref Ref Ref) :
    Costs (proveTot E gl ls) fun _ n => n ≤ ls.pp.PPPP.N + 2 := by
  refine Costs.bind (Verkle.costs_fromBytes E _) fun v k1 h1 => ?_
  refine Costs.bind (P := fun _ n => n ≤ ls.pp.PPPP.N) ?_ fun r k2 h2 => Costs.lift fun _ _ => Costs.pure (by omega)
  unfold openSumFromVertex
  split
  · exact Costs.crash
  · dsimp only
    split
    · exact Costs.crash
    · exact PP.costs_openAt_le gl _ _ _

theorem costs_proveLayer (E : Curve G1 G2 GT) (gl : Globals) (ls : LiabilitySet Ref Ref Ref) (rnd : ProveRand) (path : List ℕ)
    (vs : List (Vertex Ref)) (i : ℕ) (hr : (rnd.range i).WellFormed ls.pp.RPPP.Gs.length)
    (hHs : ls.pp.RPPP.Hs.length = 64 * ls.pp.RPPP.Gs.length) (hne : ls.pp.RPPP.Gs ≠ []) :
    Costs (proveLayer E gl ls rnd path vs i) fun _ n => n ≤ 1928 * ls.pp.RPPP.Gs.length + 25 + ls.tree.PP.N := by
  unfold proveLayer
  refine Costs.lift fun v _ => Costs.bind (costs_proveRange_le E gl _ _ hr _ _ _ hHs hne) fun rp k1 h1 => ?_
  refine Costs.lift fun p _ => Costs.bind (PP.costs_openAt_le gl _ _ _) fun o k2 h2 => Costs.pure (by omega)

theorem costs_proveLiability (E : Curve G1 G2 GT) (gl : Globals) (env : Env) (ls : LiabilitySet Ref Ref Ref) (rnd : ProveRand) (id : Str)
    (path : List ℕ) (hp : ls.tree.id2Path id = some path) (hr : ∀ i < path.length, (rnd.range i).WellFormed ls.pp.RPPP.Gs.length)
    (hHs : ls.pp.RPPP.Hs.length = 64 * ls.pp.RPPP.Gs.length) (hne : ls.pp.RPPP.Gs ≠ []) (M : ℕ)
    (hpad : padLoop ((path.length - 1 : ℕ) : ℤ) = some (M : ℤ)) (hM : path.length - 1 ≤ M) :
    Costs (proveLiability E gl env ls rnd id) fun _ n => n ≤ path.length * (1928 * ls.pp.RPPP.Gs.length + 25 + ls.tree.PP.N) +
      4 * path.length + ls.pp.PPPP.N + 18 * ls.pp.SAPP.Gs.length + M * (2 * ls.pp.POEPP.vc.N + 6) + 8 * M +
        17 * ls.pp.POEPP.G.length + ls.pp.POEPP.H.length + 23 := by
  refine Costs.lift fun path' hp' => ?_
  obtain rfl : path = path' := Option.some.inj (hp.symm.trans hp')
  refine Costs.bind (Verkle.costs_get E gl env _ id _ path hp) ?_
  rintro r k1 ⟨h1, -⟩
  rcases r with _ | ⟨x, vs⟩
  · exact Costs.pure (by omega)
  dsimp only
  split
  · exact Costs.crash
  refine Costs.bind (costs_mapM_le fun i hi => costs_proveLayer E gl ls rnd path vs i (hr i (List.mem_range.1 hi)) hHs hne) ?_
  rintro layers k2 ⟨h2, hlay⟩
  rw [List.length_range] at h2 hlay
  generalize path.length * (1928 * ls.pp.RPPP.Gs.length + 25 + ls.tree.PP.N) = K at h2 ⊢
  refine Costs.lift fun last _ => Costs.lift fun p _ => Costs.bind (P := fun _ n => n ≤ ls.pp.PPPP.N) ?_ ?_
  · unfold openForClient
    split
    · exact Costs.crash
    · exact PP.costs_openAt_le gl _ _ _
  intro o k3 h3
  refine Costs.lift fun _ _ => ?_
  refine Costs.free ((costs_mapM (c := fun _ => 0) fun i _ => PP.costs_ro E _ _ i).imp fun _ n h => by simpa using h.1) fun tPP => ?_
  refine Costs.lift fun _ _ => Costs.step (PP.costs_aggregate E _ _ _) fun π => ?_
  have h4 : (layers.filterMap fun y => y.v.W.map fun _ => y.π).length ≤ layers.length := List.length_filterMap_le _ _
  refine Costs.bind (Sum.costs_newAggregatedArgument E gl _ _ _ _ _) ?_
  intro sa k5 h5
  refine Costs.bind (PP.costs_commit gl _ _) ?_
  rw [nonZero_zeros]
  rintro zero _ rfl
  refine Costs.lift fun padded hpad' => Costs.lift fun e he => ?_
  obtain rfl : (M : ℤ) = padded := Option.some.inj (hpad.symm.trans hpad')
  obtain ⟨ePP, eV, -⟩ := equalitiesOf_sizes he
  have hpd : path.length - 1 + ((M : ℤ) - ((path.length - 1 : ℕ) : ℤ)).toNat = M := by omega
  rw [hpd] at eV
  refine Costs.bind (Poe.costs_eqsProve E gl _ e _ _ _) ?_
  intro ep k6 h6
  rw [ePP, eV] at h6
  generalize M * (2 * ls.pp.POEPP.vc.N + 6) = K' at h6 ⊢
  simp only [List.length_map] at h5
  exact Costs.pure (by omega)

end Pol

end PoL.Ptr
