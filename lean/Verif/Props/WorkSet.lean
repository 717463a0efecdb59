import Verif.Proofs.WorkSet
import Verif.Props.WorkVerify

/-!
# C123: how many points the calls of a liability set make

The parameters bound what a call of `Set`, `Get`, `Root`, `ProveTot` and `ProveLiability` costs.  It does not matter how many customers
there are, what has been done with the set before, or what the database holds.
-/

set_option linter.unusedSectionVars false

namespace PoL.Props

open Spec Ptr PoL.BP PoL.Pol PoL.Verkle

variable {G1 G2 GT : Type} [AddCommGroup G1] [Module Zr G1] [AddCommGroup G2] [Module Zr G2] [AddCommGroup GT] [Module Zr GT]
  [DecidableEq G1] [DecidableEq GT]

/-- A liability set of fan-out `F` for paths of length `L`, at any time: its tree, its root and its database are arbitrary. -/
structure SetFor (E : Curve G1 G2 GT) (α : Zr) (F L : ℕ) (q : LiabilitySet G1 G2 GT) : Prop where
  pp : Fits E α F L q.pp
  vc : q.tree.PP.N = F + 2

theorem setFor_of_new {E : Curve G1 G2 GT} {α : Zr} {F L : ℕ} {q : LiabilitySet G1 G2 GT} (h : NewSet E α F L q) : SetFor E α F L q :=
  ⟨h.pp, by rw [h.tree.pp]; rfl⟩

theorem setFor_of_sets {E : Curve G1 G2 GT} {env : Env} {α : Zr} {F L : ℕ} {q q' : LiabilitySet G1 G2 GT} (h : SetFor E α F L q)
    {hist : List (Str × ℤ)} (hs : q.sets E env hist = some q') : SetFor E α F L q' ∧ q'.tree.id2Path = q.tree.id2Path := by
  obtain ⟨-, t, s, h1, rfl⟩ := (sets_iff E env hist q q').1 hs
  have := puts_fields' h1
  exact ⟨⟨h.pp, by rw [show ({ q with tree := t, s := s } : LiabilitySet G1 G2 GT).tree = t from rfl, this]; exact h.vc⟩,
    by rw [show ({ q with tree := t, s := s } : LiabilitySet G1 G2 GT).tree = t from rfl, this]⟩

theorem four_le {E : Curve G1 G2 GT} {α : Zr} {F L : ℕ} {q : PublicParams G1 G2 GT} (hq : Fits E α F L q) : 4 ≤ F + 1 := by
  obtain ⟨k, k1, -, e⟩ := hq.power
  rw [e]
  exact Nat.pow_le_pow_right (n := 2) (by norm_num) k1

/-- **C123.** `Set` makes at most five points for each entry of the path and each entry of a vertex. -/
theorem C123_set_is_bounded {E : Curve G1 G2 GT} {α : Zr} {F L : ℕ} {ls : LiabilitySet Ref Ref Ref} {q : LiabilitySet G1 G2 GT}
    (hq : SetFor E α F L q) {h : Mem (Cell G1 G2 GT)} (hl : LsAt h ls q) (gl : Globals) (env : Env) (id : Str) (a : ℤ) (path : List ℕ)
    (hp : q.tree.id2Path id = some path) (hL : path.length = L) {h' : Mem (Cell G1 G2 GT)} {ls' : LiabilitySet Ref Ref Ref}
    (run : Ptr.Pol.set E gl env ls id a h = some (ls', h')) : made h h' ≤ 5 * ((F + 1) * L) := by
  have hF := four_le hq.pp
  have hN : ls.tree.PP.N = F + 2 := hl.vc.N.trans hq.vc
  have := made_of_costs (Ptr.Pol.costs_set E gl env ls id a (by omega) path (by rw [hl.id2Path, hp])) run
  rw [hN, hL] at this
  refine this.trans (le_trans (Nat.mul_le_mul_left L (show 4 * (F + 2) - 2 ≤ 5 * (F + 1) by omega)) (le_of_eq (by ring)))

/-- **C123.** `Root` reads at most two points; `ProveTot` makes at most one more for each entry of a vertex. -/
theorem C123_root_is_bounded {E : Curve G1 G2 GT} {α : Zr} {F L : ℕ} {ls : LiabilitySet Ref Ref Ref} {q : LiabilitySet G1 G2 GT}
    (hq : SetFor E α F L q) {h : Mem (Cell G1 G2 GT)} (hl : LsAt h ls q) (gl : Globals) :
    (∀ r h', Ptr.Pol.root E ls h = some (r, h') → made h h' ≤ 2) ∧
    (∀ t h', Ptr.Pol.proveTot E gl ls h = some (t, h') → made h h' ≤ F + 4) := by
  have hN : ls.pp.PPPP.N = F + 2 := by rw [hl.pp.PPPP.N, hq.pp.PPPP]; rfl
  refine ⟨fun r h' run => made_of_costs (Ptr.Pol.costs_root E ls) run, fun t h' run => ?_⟩
  have := made_of_costs (Ptr.Pol.costs_proveTot E gl ls) run
  omega

/-- **C123.** `Get` reads at most two points for each entry of the path. -/
theorem C123_get_is_bounded (E : Curve G1 G2 GT) {ls : LiabilitySet Ref Ref Ref} {q : LiabilitySet G1 G2 GT}
    {h : Mem (Cell G1 G2 GT)} (hl : LsAt h ls q) (gl : Globals) (env : Env) (id : Str) (path : List ℕ)
    (hp : q.tree.id2Path id = some path) {h' : Mem (Cell G1 G2 GT)} {r : Option ℤ}
    (run : Ptr.Pol.get E gl env ls id h = some (r, h')) : made h h' ≤ 2 * path.length := by
  refine made_of_costs (P := fun _ n => n ≤ 2 * path.length) ?_ run
  refine Costs.bind (Verkle.costs_get E gl env _ id _ path (by rw [hl.id2Path, hp])) ?_
  rintro r k ⟨hk, -⟩
  exact Costs.pure (by omega)

/-- **C123.** `ProveLiability` makes at most 1965 points for each entry of the path and each entry of a vertex. -/
theorem C123_prove_is_bounded {E : Curve G1 G2 GT} {α : Zr} {F L : ℕ} {ls : LiabilitySet Ref Ref Ref} {q : LiabilitySet G1 G2 GT}
    (hq : SetFor E α F L q) {h : Mem (Cell G1 G2 GT)} (hl : LsAt h ls q) (gl : Globals) (env : Env) (rnd : ProveRand)
    (hr : RandSized F L rnd) (id : Str) (path : List ℕ) (hp : q.tree.id2Path id = some path) (hL : path.length = L)
    {h' : Mem (Cell G1 G2 GT)} {r : Option (ℤ × LiabilityProof Ref)}
    (run : Ptr.Pol.proveLiability E gl env ls rnd id h = some (r, h')) : made h h' ≤ 1965 * ((F + 1) * L) := by
  have hf := hq.pp
  have hF := four_le hf
  have hL2 := hf.depth
  have hG1 : q.pp.PPPP.G1s.length = 2 * (F + 2) := by rw [hf.PPPP, PP.new_G1s_length E α _ (by omega)]
  obtain ⟨M, hM, mG, mH⟩ := hf.poe_size
  obtain ⟨M', hpad, hM'⟩ := padLoop_spec (m := path.length - 1) (by omega) (by
    obtain ⟨j, -, j2, hj⟩ := hM.1
    have := hM.2.1
    have h15 : 2 ^ j ≤ 2 ^ 15 := Nat.pow_le_pow_right (by norm_num) j2
    rw [hL]
    omega)
  rw [hL] at hM'
  obtain rfl : M' = M := isPadded_unique hM' hM
  have hM2 := isPadded_lt hM (by omega)
  have hle := hM.2.1
  have g1 : ls.pp.RPPP.Gs.length = F + 1 := by rw [hl.pp.RPPP.Gs.length, hf.rp_Gs, List.length_take, hG1]; omega
  have g2 := hl.pp.RPPP.Hs.length.trans hf.rp_Hs
  have g4 : ls.pp.SAPP.Gs.length = F + 1 := by rw [hl.pp.SAPP.Gs.length, hf.sa_Gs, List.length_take, hG1]; omega
  have g6 := hl.pp.POEPP.G.length.trans mG
  have g7 := hl.pp.POEPP.H.length.trans mH
  have n1 : ls.tree.PP.N = F + 2 := hl.vc.N.trans hq.vc
  have n2 : ls.pp.PPPP.N = F + 2 := by rw [hl.pp.PPPP.N, hf.PPPP]; rfl
  have n3 : ls.pp.POEPP.vc.N = F + 2 := by rw [hl.pp.POEPP.vc.N, hf.poe_vc, hf.PPPP]; rfl
  have := made_of_costs (Ptr.Pol.costs_proveLiability E gl env ls rnd id path (by rw [hl.id2Path, hp])
    (fun i hi => by rw [g1]; exact hr.range i (by omega)) (by omega) (List.length_pos_iff.1 (by omega)) M' hpad (by omega)) run
  rw [g1, g4, g6, g7, n1, n2, n3, hL] at this
  have e0 : L * (1928 * (F + 1) + 25 + (F + 2)) = 1929 * ((F + 1) * L) + 26 * L := by ring
  have e1 : M' * (2 * (F + 2) + 6) ≤ (2 * (L - 1)) * (2 * (F + 2) + 6) := Nat.mul_le_mul_right _ hM2
  have e2 : 4 * L ≤ (F + 1) * L := Nat.mul_le_mul_right L hF
  have e3 : (F + 1) * 2 ≤ (F + 1) * L := Nat.mul_le_mul_left (F + 1) hL2
  have e4 : (2 * (L - 1)) * (2 * (F + 2) + 6) + 4 * (F + 1) + 16 = 4 * ((F + 1) * L) + 16 * L := by
    obtain ⟨l, rfl⟩ : ∃ l, L = l + 1 := ⟨L - 1, by omega⟩
    rw [Nat.add_sub_cancel]
    ring
  rw [e0] at this
  generalize (F + 1) * L = A at *
  omega

theorem Costs.with {C α : Type} {m : Run C α} {P : α → ℕ → Prop} {Q : α → Prop} (c : Costs m P)
    (hq : ∀ h a h', m h = some (a, h') → Q a) : Costs m fun a n => P a n ∧ Q a := by
  intro h a h' e
  obtain ⟨n, h1, h2⟩ := c h a h' e
  exact ⟨n, h1, h2, hq h a h' e⟩

theorem costs_sets (E : Curve G1 G2 GT) (gl : Globals) (env : Env) (L : ℕ) : ∀ (hist : List (Str × ℤ)) (ls : LiabilitySet Ref Ref Ref),
    4 ≤ ls.tree.PP.N → (∀ e ∈ hist, ∃ path, ls.tree.id2Path e.1 = some path ∧ path.length = L) →
      Costs (Ptr.Pol.sets E gl env ls hist) fun _ n => n ≤ hist.length * (L * (4 * ls.tree.PP.N - 2))
  | [], ls, _, _ => by
    unfold Ptr.Pol.sets
    rw [List.foldlM_nil]
    exact Costs.pure (by omega)
  | e :: hist, ls, hN, hp => by
    obtain ⟨path, hp1, hp2⟩ := hp e (by simp)
    unfold Ptr.Pol.sets
    rw [List.foldlM_cons]
    refine Costs.bind (Costs.with (Q := fun a => a.tree.PP = ls.tree.PP ∧ a.tree.id2Path = ls.tree.id2Path)
      (Ptr.Pol.costs_set E gl env ls e.1 e.2 hN path hp1) ?_) ?_
    · intro h a h' run
      unfold Ptr.Pol.set at run
      split at run
      · exact nomatch run
      · cases hr : Ptr.Verkle.put E gl env ls.tree e.1 e.2 ls.s h with
        | none => exact nomatch (show none = some (a, h') by rw [← run]; exact (by simp [StateT.bind, bind, hr]))
        | some r =>
          have run' : some ({ ls with tree := r.1.1, s := r.1.2 }, r.2) = some (a, h') := by
            rw [← run]
            simp [StateT.bind, bind, hr]
            rfl
          obtain ⟨rfl, -⟩ := Prod.mk.inj (Option.some.inj run')
          simp only [Ptr.Verkle.put, Option.bind_eq_bind, Option.bind_eq_some_iff] at hr
          obtain ⟨x, -, hx⟩ := hr
          rw [← Option.some.inj hx]
          exact ⟨rfl, rfl⟩
    · rintro ls1 k ⟨hk, hPP, hid⟩
      refine (costs_sets E gl env L hist ls1 (by rw [hPP]; exact hN) fun e' he' => by rw [hid]; exact hp e' (by simp [he'])).imp ?_
      intro _ n hn
      rw [hPP] at hn
      rw [hp2] at hk
      rw [List.length_cons, Nat.succ_mul]
      omega

/-- **C123.** The work of a sequence of `Set`s grows no faster than its length. -/
theorem C123_sets_are_linear {E : Curve G1 G2 GT} {α : Zr} {F L : ℕ} {ls : LiabilitySet Ref Ref Ref} {q : LiabilitySet G1 G2 GT}
    (hq : SetFor E α F L q) {h : Mem (Cell G1 G2 GT)} (hl : LsAt h ls q) (gl : Globals) (env : Env) (hist : List (Str × ℤ))
    (hids : ∀ e ∈ hist, ∃ path, q.tree.id2Path e.1 = some path ∧ path.length = L) {h' : Mem (Cell G1 G2 GT)}
    {ls' : LiabilitySet Ref Ref Ref} (run : Ptr.Pol.sets E gl env ls hist h = some (ls', h')) :
    made h h' ≤ hist.length * (5 * ((F + 1) * L)) := by
  have hF := four_le hq.pp
  have hN : ls.tree.PP.N = F + 2 := hl.vc.N.trans hq.vc
  have := made_of_costs (costs_sets E gl env L hist ls (by omega) fun e he => by rw [hl.id2Path]; exact hids e he) run
  rw [hN] at this
  refine this.trans (Nat.mul_le_mul_left _ ?_)
  exact le_trans (Nat.mul_le_mul_left L (show 4 * (F + 2) - 2 ≤ 5 * (F + 1) by omega)) (le_of_eq (by ring))

theorem place_ls (q : LiabilitySet G1 G2 GT) : Place LsAt q := by
  intro h
  obtain ⟨h₁, vc, k₁, r₁⟩ := place_pp q.tree.PP h
  obtain ⟨h₂, p, k₂, r₂⟩ := place_pub q.pp h₁
  exact ⟨h₂, ⟨⟨vc, q.tree.fanOut, q.tree.id2Path, q.tree.root⟩, p, q.memRoot, q.s⟩, k₁.trans k₂, r₁.mono k₂, rfl, rfl, rfl, r₂, rfl, rfl⟩

/-- After four writes, `Set`, `Get`, `ProveTot` and `ProveLiability` return, so that the bounds are about something. -/
example : ∃ (h : Mem (Cell Zr Zr Zr)) (gl : Globals) (ls : LiabilitySet Ref Ref Ref) (q : LiabilitySet Zr Zr Zr),
    SetFor toyCurve 2 3 3 q ∧ LsAt h ls q ∧ q.tree.id2Path ['2', '2', '1'] = some [2, 2, 1] ∧
    (Ptr.Pol.set toyCurve gl toyEnv ls ['2', '2', '1'] 5 h).isSome ∧ (Ptr.Pol.get toyCurve gl toyEnv ls ['2', '2', '1'] h).isSome ∧
    (Ptr.Pol.proveTot toyCurve gl ls h).isSome ∧ (Ptr.Pol.proveLiability toyCurve gl toyEnv ls toyRand ['2', '2', '1'] h).isSome := by
  obtain ⟨ls, h, ht⟩ := toy_set
  have hids : ValidIds ls.tree.id2Path 3 3 toyHist := by rw [ht]; exact toyHist_valid
  have h42 : totalAmount (byPath ls.tree.id2Path toyHist) = 42 := by rw [ht]; decide
  have hp : ls.tree.id2Path ['2', '2', '1'] = some [2, 2, 1] := by rw [ht]; rfl
  have hids' : ValidIds ls.tree.id2Path 3 3 (toyHist ++ [(['2', '2', '1'], 5)]) := by
    intro e he
    rcases List.mem_append.1 he with he | he
    · exact hids e he
    · obtain rfl := List.mem_singleton.1 he
      exact ⟨_, hp, rfl, by decide⟩
  obtain ⟨ls', hs⟩ := C43_sets_return toyCurve_lawful toyEnv_lawful h toyHist hids (by decide)
  obtain ⟨ls'', hs'⟩ := C43_sets_return toyCurve_lawful toyEnv_lawful h (toyHist ++ [(['2', '2', '1'], 5)]) hids' (by decide)
  obtain ⟨tp, x, hT, -⟩ := C44_total_proof toyCurve_lawful toyEnv_lawful h toyHist (by decide) hids hs (by rw [h42]; norm_num)
  obtain ⟨lp, x, W, hP, -⟩ := C47_liability_proof_verifies_partial toyCurve_lawful toyEnv_lawful h toyHist hids hs
    (by rw [h42]; norm_num) ['2', '2', '1'] [2, 2, 1] hp (by rw [ht]; decide) (by rw [ht]; decide) toyRand
    toyRand_sized (toy_challenges _ _ _)
  have hG := C43_get_latest toyCurve_lawful toyEnv_lawful h toyHist hids hs ['2', '2', '1'] [2, 2, 1] hp rfl (by rw [ht]; decide)
  rw [sets_append, hs, Option.bind_some] at hs'
  have hS : ls'.set toyCurve toyEnv ['2', '2', '1'] 5 = some ls'' := by
    rw [← hs']
    unfold LiabilitySet.sets
    rw [List.foldlM_cons, Option.bind_eq_bind]
    cases ls'.set toyCurve toyEnv ['2', '2', '1'] 5 <;> rfl
  obtain ⟨hfor, hid⟩ := setFor_of_sets (setFor_of_new h) hs
  obtain ⟨gl, m₀, -, -, g0⟩ := agrees_some (wp_initGlobals (E := toyCurve) ⟨[], []⟩)
  obtain ⟨m, p, k, r⟩ := place_ls ls' m₀
  obtain ⟨a1, a2, -, a4, a5⟩ := C92_liability_set (g0.mono k) r toyEnv ['2', '2', '1'] 5 toyRand
  rw [hS] at a1
  rw [hG] at a2
  rw [hT] at a4
  rw [hP] at a5
  obtain ⟨_, _, e1, -⟩ := agrees_some a1
  obtain ⟨_, _, e2, -⟩ := agrees_some a2
  obtain ⟨_, _, e4, -⟩ := agrees_some a4
  obtain ⟨_, _, e5, -⟩ := agrees_some a5
  exact ⟨m, gl, p, ls', hfor, r, by rw [hid, hp], by rw [e1]; rfl, by rw [e2]; rfl, by rw [e4]; rfl, by rw [e5]; rfl⟩

end PoL.Props
