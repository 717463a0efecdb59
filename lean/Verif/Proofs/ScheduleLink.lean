import Verif.Proofs.ScheduleLive
import Verif.Proofs.ScheduleProve
import Verif.Proofs.PolVerify

/-! The sequential programs of `Verif/Model/Schedule.lean` are `Verify` and `ProveLiability`. -/

set_option linter.unusedSectionVars false

namespace PoL

/-- Two programs with the same first part. -/
theorem map_bind_bind {α β β' γ : Type} {x : Option α} {f : α → Option β} {p : β → γ} {g : α → Option β'}
    {h : β' → Option γ} (hs : ∀ a, (f a).map p = g a >>= h) : (x >>= f).map p = (x >>= g) >>= h := by
  cases x with
  | none => rfl
  | some a => exact hs a

theorem map_bind_one {α β γ : Type} {x : Option α} {f : α → Option β} {p : β → γ} {g : α → Option γ}
    (hs : ∀ a, (f a).map p = g a) : (x >>= f).map p = (x >>= g) := by
  cases x with
  | none => rfl
  | some a => exact hs a

namespace BP

variable {G1 G2 GT : Type} [AddCommGroup G1] [Module Zr G1] [AddCommGroup G2] [Module Zr G2]
  [AddCommGroup GT] [Module Zr GT] [DecidableEq G1]

/-- The job, run alone, in one piece. -/
theorem job_alone (E : Curve G1 G2 GT) (pp : RPPP G1) (rp : RangeProof G1) (V : G1) :
    (verifyRangeJob E pp rp V).alone = (rangeJob E pp rp V >>= fun r => match r with
      | none => some false
      | some (w, k) => k w.1 w.2) := by
  unfold Sched.Job.alone verifyRangeJob
  dsimp only
  cases rangeJob E pp rp V with
  | none => rfl
  | some r => cases r with
    | none => rfl
    | some wk => rfl

/-- `VerifyRange` is its job, run alone. -/
theorem verifyRange_eq (E : Curve G1 G2 GT) (pp : RPPP G1) (rp : RangeProof G1) (V : G1) :
    verifyRange E pp rp V = (verifyRangeJob E pp rp V).alone := by
  rw [job_alone]
  unfold verifyRange verifyRangeState rangeJob
  refine map_bind_bind (fun x => ?_)
  refine map_bind_bind (fun ppRdx => ?_)
  refine map_bind_bind (fun iv => ?_)
  cases iv with
  | none => rfl
  | some xu =>
    refine map_bind_bind (fun f => ?_)
    refine map_bind_bind (fun d => ?_)
    refine map_bind_bind (fun y0 => ?_)
    refine map_bind_bind (fun y1 => ?_)
    refine map_bind_bind (fun z => ?_)
    refine map_bind_bind (fun Fp => ?_)
    refine map_bind_bind (fun ipa => ?_)
    refine map_bind_bind (fun P => ?_)
    refine Eq.trans (map_bind_one (fun ok => ?_)) (Eq.symm rfl)
    cases ok with
    | false => rfl
    | true =>
      refine map_bind_one (fun b1 => ?_)
      refine map_bind_one (fun b2 => ?_)
      refine map_bind_one (fun dd => ?_)
      refine map_bind_one (fun b3 => ?_)
      rfl

end BP

namespace Pol
open BP

variable {G1 G2 GT : Type} [AddCommGroup G1] [Module Zr G1] [AddCommGroup G2] [Module Zr G2]
  [AddCommGroup GT] [Module Zr GT] [DecidableEq G1] [DecidableEq GT]

theorem verifyLoop_eq (E : Curve G1 G2 GT) (lp : LiabilityProof G1) (pp : PublicParams G1 G2 GT) (path : List ℕ)
    (cell : ℕ → ℕ) : ∀ (rest i : ℕ) (err : Bool),
      (lp.prog E pp path cell).seqLoop i rest err = lp.verifyLoop E pp path.length i rest err := by
  intro rest
  induction rest with
  | zero => intro i err; rfl
  | succ rest ih =>
    intro i err
    rw [Sched.Prog.seqLoop, LiabilityProof.verifyLoop]
    dsimp only [LiabilityProof.prog]
    by_cases h : i + 1 < path.length ∧ lp.V.length ≤ i + 1
    · rw [if_pos h, if_pos h]; rfl
    · rw [if_neg h, if_neg h]
      simp only [Option.bind_eq_bind, Option.bind_assoc]
      refine Option.bind_congr (fun rp _ => ?_)
      refine Option.bind_congr (fun C _ => ?_)
      simp only [Option.pure_def, Option.bind_some, ← verifyRange_eq]
      refine Option.bind_congr (fun ok _ => ?_)
      have ih' := ih (i + 1) (err || !ok)
      unfold LiabilityProof.prog at ih'
      rw [← ih']
      split_ifs with h1 h2
      · rfl
      · rfl
      · rfl

theorem verify_eq (E : Curve G1 G2 GT) (lp : LiabilityProof G1) (pp : PublicParams G1 G2 GT) (id : Str) (V W : G1)
    (id2path : Str → Option (List ℕ)) (cell : ℕ → ℕ) :
    lp.verify E pp id V W id2path = (do
      match ← lp.firstChecks id V W id2path with
      | none => return false
      | some path => (lp.prog E pp path cell).seq) := by
  unfold LiabilityProof.verify LiabilityProof.firstChecks
  simp only [Option.bind_eq_bind, Option.bind_assoc]
  refine Option.bind_congr (fun path _ => ?_)
  by_cases h1 : lp.W.length + 1 ≠ path.length ∨ lp.digests.length ≠ path.length
  · rw [if_pos h1, if_pos h1]; rfl
  · rw [if_neg h1, if_neg h1]
    simp only [Option.bind_assoc]
    refine Option.bind_congr (fun C _ => ?_)
    by_cases h2 : C ≠ V
    · rw [if_pos h2, if_pos h2]; rfl
    · rw [if_neg h2, if_neg h2]
      simp only [Option.bind_assoc]
      refine Option.bind_congr (fun D _ => ?_)
      by_cases h3 : D ≠ W
      · rw [if_pos h3, if_pos h3]; rfl
      · rw [if_neg h3, if_neg h3]
        simp only [Option.pure_def, Option.bind_some]
        unfold Sched.Prog.seq
        rw [show (lp.prog E pp path cell).n = path.length from rfl, verifyLoop_eq]
        refine Option.bind_congr (fun r _ => ?_)
        cases r with
        | none => rfl
        | some err =>
          dsimp only [LiabilityProof.prog]
          simp only [Option.bind_eq_bind, Option.bind_assoc]
          refine Option.bind_congr (fun b1 _ => ?_)
          cases b1 with
          | false => rfl
          | true =>
            simp only [Bool.not_true, Bool.false_eq_true, if_false, Option.bind_assoc]
            refine Option.bind_congr (fun b2 _ => ?_)
            cases b2 with
            | false => rfl
            | true =>
              simp only [Bool.not_true, Bool.false_eq_true, if_false, Option.bind_assoc]
              rfl

/-- One round of the sequential program: the main goroutine's part and the range proof. -/
theorem proveLayer_eq (E : Curve G1 G2 GT) (ls : LiabilitySet G1 G2 GT) (rnd : ProveRand) (path : List ℕ)
    (vs : List (Verkle.Vertex G1)) (i : ℕ) (y : Layer G1) :
    proveLayer E ls rnd path vs i = some y ↔
      mainLayer ls path vs i = some (y.v, y.digest, y.π) ∧ rangeProofOf E ls rnd vs i = some y.rangeProof := by
  unfold proveLayer mainLayer rangeProofOf
  cases hv : vs[i]? with
  | none => simp
  | some v =>
    simp only [Option.bind_eq_bind, Option.bind_some]
    cases hr : proveRange E ls.pp.RPPP (rnd.range i) v.V (v.valuesVec (ls.tree.fanOut + 1)) v.blindingFactor with
    | none => simp
    | some r =>
      simp only [Option.bind_some]
      cases hp : path[i]? with
      | none => simp
      | some p =>
        simp only [Option.bind_some]
        cases ls.tree.PP.openAt p
            (List.map (fun j => (v.digests (UInt16.ofNat j)).getD (intToZr 0)) (List.range (ls.tree.fanOut + 2))) with
        | none => simp
        | some dp =>
          obtain ⟨v', r', d', p'⟩ := y
          simp only [Option.bind_some, Option.pure_def, Option.some.injEq, Layer.mk.injEq, Prod.mk.injEq]
          tauto

theorem result_bind {α β γ : Type} {x : Option α} {F : α → Option (β → γ)} {a : β} {R : γ} {F' : α → Option (Option γ)}
    (h : ∀ v, (∃ f, F v = some f ∧ f a = R) ↔ F' v = some (some R)) :
    (∃ f, (x >>= F) = some f ∧ f a = R) ↔ (x >>= F') = some (some R) := by
  cases x with
  | none => simp
  | some v => exact h v

theorem result_map_bind {α α' β γ : Type} {x : Option α} {g : α → α'} {F : α' → Option (β → γ)} {a : β} {R : γ}
    {F' : α → Option (Option γ)} (h : ∀ v, (∃ f, F (g v) = some f ∧ f a = R) ↔ F' v = some (some R)) :
    (∃ f, (x.map g >>= F) = some f ∧ f a = R) ↔ (x >>= F') = some (some R) := by
  cases x with
  | none => simp
  | some v => exact h v

/-- The range proofs filled in. -/
def withProof (m : Verkle.Vertex G1 × Zr × G1) (r : RangeProof G1) : Layer G1 := ⟨m.1, r, m.2.1, m.2.2⟩

theorem layers_iff (E : Curve G1 G2 GT) (ls : LiabilitySet G1 G2 GT) (rnd : ProveRand) (path : List ℕ)
    (vs : List (Verkle.Vertex G1)) (layers : List (Layer G1)) :
    (List.range path.length).mapM (fun i => proveLayer E ls rnd path vs i) = some layers ↔
      (List.range path.length).mapM (fun i => mainLayer ls path vs i)
          = some (layers.map fun y => (y.v, y.digest, y.π)) ∧
        (List.range path.length).mapM (fun i => rangeProofOf E ls rnd vs i) = some (layers.map Layer.rangeProof) := by
  generalize List.range path.length = l
  induction l generalizing layers with
  | nil => cases layers <;> simp
  | cons i l ih =>
    simp only [List.mapM_cons, Option.bind_eq_bind, Option.pure_def, Option.bind_eq_some_iff, Option.some.injEq]
    constructor
    · rintro ⟨y, hy, ys, hys, rfl⟩
      have h1 := (proveLayer_eq E ls rnd path vs i y).1 hy
      have h2 := (ih ys).1 hys
      exact ⟨⟨_, h1.1, _, h2.1, rfl⟩, ⟨_, h1.2, _, h2.2, rfl⟩⟩
    · rintro ⟨⟨a, ha, as, has, he⟩, ⟨b, hb, bs, hbs, he'⟩⟩
      cases layers with
      | nil => simp at he
      | cons y ys =>
        simp only [List.map_cons, List.cons.injEq] at he he'
        obtain ⟨rfl, rfl⟩ := he
        obtain ⟨rfl, rfl⟩ := he'
        exact ⟨y, (proveLayer_eq E ls rnd path vs i y).2 ⟨ha, hb⟩, ys, (ih ys).2 ⟨has, hbs⟩, rfl⟩

/-- `ProveLiability` after the loop. -/
theorem proveLiability_iff (E : Curve G1 G2 GT) (env : Verkle.Env) (ls : LiabilitySet G1 G2 GT) (rnd : ProveRand)
    (id : Str) (l : ℤ) (lp : LiabilityProof G1) :
    ls.proveLiability E env rnd id = some (some (l, lp)) ↔ ∃ path x vs layers f rps, ls.tree.id2Path id = some path ∧
      ls.tree.get E env id ls.s.db = some (some (x, vs)) ∧ path.length ≠ 0 ∧
      (List.range path.length).mapM (fun i => mainLayer ls path vs i) = some layers ∧
      (List.range path.length).mapM (fun i => rangeProofOf E ls rnd vs i) = some rps ∧
      mainRest E ls rnd path layers = some f ∧ f rps = (l, lp) := by
  have hrest : ∀ path (layers : List (Layer G1)) (R : ℤ × LiabilityProof G1),
      (∃ f, mainRest E ls rnd path (layers.map fun y => (y.v, y.digest, y.π)) = some f ∧
        f (layers.map Layer.rangeProof) = R) ↔ ((do
      let last ← layers.getLast?
      let (l, liabilityProof) ← ls.openForClient last.v (← path.getLast?)
      let liability ← zrInt l
      let V := layers.map fun y => y.v.V
      let W := layers.filterMap fun y => y.v.W
      let digestProofs := layers.filterMap fun y => y.v.W.map fun _ => y.π
      let digests := layers.map Layer.digest
      let tPP ← (List.range (path.length - 1)).mapM fun i => PP.ro E ls.tree.PP W i
      let pointProofSum ← Vec.innerProd (digests.take tPP.length) tPP
      let pointProof ← ls.tree.PP.aggregate W digestProofs (PP.ro E)
      let sumArgumentProof ← Verkle.sumArgument E ls.pp.SAPP rnd.sum (layers.map Layer.v)
      let zeroVec := List.replicate (ls.tree.fanOut + 2) (intToZr 0)
      let zeroCommit ← ls.pp.PPPP.commit zeroVec
      let padded ← padLoop ((path.length - 1 : ℕ) : ℤ)
      let padding := (padded - (path.length - 1 : ℕ)).toNat
      let vEQ := ((layers.take (path.length - 1)).map fun y => eqVector y.v ls.tree.fanOut)
        ++ List.replicate padding zeroVec
      let wEQ := ((layers.drop 1).map fun y => eqVector y.v ls.tree.fanOut) ++ List.replicate padding zeroVec
      let equalities ← equalitiesOf E ls.pp.POEPP ls.tree.fanOut path V zeroCommit padding
      let equalityProof ← equalities.prove E rnd.eq vEQ wEQ
      return some (liability,
        { pointProofSum := pointProofSum
          pointProof := pointProof
          sumArgumentProof := sumArgumentProof
          V := V
          W := W
          digests := digests
          rangeProofs := layers.map Layer.rangeProof
          equalityProof := equalityProof
          total := { liabilityProof := liabilityProof, sum := liability } }) :
        Option (Option (ℤ × LiabilityProof G1))) = some (some R)) := by
    intro path layers R
    unfold mainRest
    rw [List.getLast?_map]
    have hmap : ∀ {β : Type} (h : Verkle.Vertex G1 × Zr × G1 → β),
        (layers.map fun y => (y.v, y.digest, y.π)).map h = layers.map fun y => h (y.v, y.digest, y.π) := by
      intro β h; rw [List.map_map]; rfl
    have hfmap : ∀ {β : Type} (h : Verkle.Vertex G1 × Zr × G1 → Option β),
        (layers.map fun y => (y.v, y.digest, y.π)).filterMap h = layers.filterMap fun y => h (y.v, y.digest, y.π) := by
      intro β h; rw [List.filterMap_map]; rfl
    have htake : ∀ n, (layers.map fun y => (y.v, y.digest, y.π)).take n
        = (layers.take n).map fun y => (y.v, y.digest, y.π) := by
      intro n; rw [List.map_take]
    have hdrop : ∀ n, (layers.map fun y => (y.v, y.digest, y.π)).drop n
        = (layers.drop n).map fun y => (y.v, y.digest, y.π) := by
      intro n; rw [List.map_drop]
    have hmap2 : ∀ (k : List (Layer G1)), (k.map fun y => (y.v, y.digest, y.π)).map (fun y => eqVector y.1 ls.tree.fanOut)
        = k.map fun y => eqVector y.v ls.tree.fanOut := by
      intro k; rw [List.map_map]; rfl
    rw [htake, hdrop, hmap2, hmap2, hmap, hmap, hmap, hfmap, hfmap]
    refine result_map_bind (fun last => ?_)
    refine result_bind (fun p => ?_)
    refine result_bind (fun o => ?_)
    refine result_bind (fun li => ?_)
    refine result_bind (fun t => ?_)
    refine result_bind (fun a1 => ?_)
    refine result_bind (fun a2 => ?_)
    refine result_bind (fun a3 => ?_)
    refine result_bind (fun a4 => ?_)
    refine result_bind (fun a5 => ?_)
    refine result_bind (fun a6 => ?_)
    refine result_bind (fun a7 => ?_)
    simp only [Option.pure_def, Option.some.injEq, exists_eq_left']
  unfold LiabilitySet.proveLiability
  constructor
  · intro h
    obtain ⟨path, hp, h⟩ := obind_elim h
    obtain ⟨g, hg, h⟩ := obind_elim h
    cases g with
    | none => simp at h
    | some xvs =>
      obtain ⟨x, vs⟩ := xvs
      dsimp only at h
      by_cases h0 : path.length = 0
      · rw [if_pos h0] at h; simp at h
      · rw [if_neg h0] at h
        obtain ⟨layers, hl, h⟩ := obind_elim h
        obtain ⟨f, hf1, hf2⟩ := (hrest path layers (l, lp)).2 h
        obtain ⟨h1, h2⟩ := (layers_iff E ls rnd path vs layers).1 hl
        exact ⟨path, x, vs, _, f, _, hp, hg, h0, h1, h2, hf1, hf2⟩
  · rintro ⟨path, x, vs, ms, f, rps, hp, hg, h0, h1, h2, hf1, hf2⟩
    have hlen : ms.length = rps.length := by rw [mapM_length _ _ _ h1, mapM_length _ _ _ h2]
    have e1 : (List.zipWith withProof ms rps).map (fun y => (y.v, y.digest, y.π)) = ms := by
      rw [List.map_zipWith]
      exact List.ext_getElem (by simp [hlen]) (by intro i h h'; simp [withProof])
    have e2 : (List.zipWith withProof ms rps).map Layer.rangeProof = rps := by
      rw [List.map_zipWith]
      exact List.ext_getElem (by simp [hlen]) (by intro i h h'; simp [withProof])
    refine obind_step hp ?_
    refine obind_step hg ?_
    dsimp only
    rw [if_neg h0]
    refine obind_step ((layers_iff E ls rnd path vs (List.zipWith withProof ms rps)).2 ⟨by rw [e1]; exact h1,
      by rw [e2]; exact h2⟩) ?_
    exact (hrest path _ (l, lp)).1 ⟨f, by rw [e1]; exact hf1, by rw [e2]; exact hf2⟩

end Pol
end PoL
