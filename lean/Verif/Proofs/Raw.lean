import Verif.Model.RawArg
import Verif.Proofs.PtrBp

/-!
# Residues of the integer model: `common`, `bp/innerprod.go`, `bp/ir.go`
-/

namespace PoL

theorem res_canon (x : Zr) : ((canon x : ℤ) : Zr) = x := by
  unfold canon
  rw [Int.cast_natCast, ZMod.natCast_zmod_val]

theorem reduced_canon (x : Zr) : Reduced (canon x) :=
  ⟨Int.natCast_nonneg _, by unfold canon; exact_mod_cast ZMod.val_lt x⟩

theorem canon_res {x : ℤ} (h : Reduced x) : canon (x : Zr) = x := by
  unfold canon
  rw [ZMod.val_intCast]
  exact Int.emod_eq_of_lt h.1 h.2

theorem res_mod (x : ℤ) : ((x % order : ℤ) : Zr) = x := by
  rw [ZMod.intCast_mod]

theorem reduced_mod (x : ℤ) : Reduced (x % order) := by
  have h0 : (0 : ℤ) < order := by unfold order; norm_num
  exact ⟨Int.emod_nonneg _ h0.ne', Int.emod_lt_of_pos _ h0⟩

theorem resV_canon (v : List Zr) : resV (v.map canon) = v := by
  unfold resV
  rw [List.map_map]
  conv_rhs => rw [← List.map_id v]
  exact List.map_congr_left fun x _ => res_canon x

theorem Reduced.eq_of_res {x y : ℤ} (hx : Reduced x) (hy : Reduced y) (h : (x : Zr) = y) : x = y := by
  rw [← canon_res hx, ← canon_res hy, h]

/-- One step of a comparison of two runs in the `Option` monad. -/
theorem sim_bind {α β γ δ : Type} {c : α → β} {d : γ → δ} {x : Option α} {y : Option β} {k : α → Option γ}
    {k' : β → Option δ} (h : x.map c = y) (hk : ∀ a, x = some a → (k a).map d = k' (c a)) :
    (x.bind k).map d = y.bind k' := by
  subst h
  cases x with
  | none => rfl
  | some a => exact hk a rfl

/-- The same for a step that both runs make. -/
theorem sim_same {α γ δ : Type} {d : γ → δ} {x : Option α} {k : α → Option γ} {k' : α → Option δ}
    (hk : ∀ a, x = some a → (k a).map d = k' a) : (x.bind k).map d = x.bind k' := by
  cases x with
  | none => rfl
  | some a => exact hk a rfl

theorem zipWith_map_map {α β γ α' β' γ' : Type} {f : α → β → γ} {f' : α' → β' → γ'} {p : α → α'} {q : β → β'}
    {r : γ → γ'} (h : ∀ a b, r (f a b) = f' (p a) (q b)) :
    ∀ (l : List α) (m : List β), (List.zipWith f l m).map r = List.zipWith f' (l.map p) (m.map q)
  | [], _ => by simp
  | _ :: _, [] => by simp
  | a :: l, b :: m => by simp [h, zipWith_map_map h l m]

theorem sim_mapM {α β γ : Type} {c : β → γ} {f : α → Option β} {g : α → Option γ} (h : ∀ a, (f a).map c = g a) :
    ∀ l : List α, (l.mapM f).map (List.map c) = l.mapM g
  | [] => rfl
  | a :: l => by
    simp only [List.mapM_cons, Option.bind_eq_bind, Option.pure_def]
    refine sim_bind (h a) fun b _ => sim_bind (sim_mapM h l) fun bs _ => ?_
    rfl

theorem sim_mapM' {α α' β γ : Type} {p : α → α'} {c : β → γ} {f : α → Option β} {g : α' → Option γ}
    (h : ∀ a, (f a).map c = g (p a)) : ∀ l : List α, (l.mapM f).map (List.map c) = (l.map p).mapM g
  | [] => rfl
  | a :: l => by
    simp only [List.map_cons, List.mapM_cons, Option.bind_eq_bind, Option.pure_def]
    refine sim_bind (h a) fun b _ => sim_bind (sim_mapM' h l) fun bs _ => ?_
    rfl

namespace Raw

variable {G1 G2 GT : Type} [AddCommGroup G1] [Module Zr G1] [AddCommGroup G2] [Module Zr G2]
  [AddCommGroup GT] [Module Zr GT]
variable {S : ScalarLib}

theorem resV_length (v : List ℤ) : (resV v).length = v.length := List.length_map _

theorem resV_zipWith {f : ℤ → ℤ → ℤ} {g : Zr → Zr → Zr} (h : ∀ a b, res (f a b) = g (res a) (res b)) (l m : List ℤ) :
    resV (List.zipWith f l m) = List.zipWith g (resV l) (resV m) := zipWith_map_map h l m

theorem sim_getElem (v : List ℤ) (i : ℕ) : (v[i]?).map res = (resV v)[i]? := by simp [resV]

theorem sim_sliceTo (v : List ℤ) (n : ℕ) : (sliceTo v n).map resV = sliceTo (resV v) n := by
  unfold sliceTo
  simp only [resV, List.length_map]
  split_ifs <;> simp [List.map_take]

theorem sim_sliceFrom (v : List ℤ) (n : ℕ) : (sliceFrom v n).map resV = sliceFrom (resV v) n := by
  unfold sliceFrom
  simp only [resV, List.length_map]
  split_ifs <;> simp [List.map_drop]

theorem resV_append (v w : List ℤ) : resV (v ++ w) = resV v ++ resV w := List.map_append

theorem resV_reverse (v : List ℤ) : resV v.reverse = Vec.reverse (resV v) := List.map_reverse

theorem resV_expand (x : ℤ) (n : ℕ) : resV (expand x n) = BP.expand (res x) n := by
  simp [expand, BP.expand, resV]

theorem resV_ints (ns : List ℕ) : resV (intsToZr ns) = PoL.intsToZr ns := by
  unfold resV intsToZr PoL.intsToZr
  rw [List.map_map]
  exact List.map_congr_left fun n _ => by simp [intToZr, res]

theorem res_negZr (hS : S.Lawful) (x : ℤ) : res (negZr S x) = PoL.negZr (res x) := by
  simp [negZr, PoL.negZr, res, hS.modSub_res]

theorem res_pow2 (hS : S.Lawful) (n : ℕ) : res (pow2 S n) = PoL.pow2 n := by
  simp [pow2, PoL.pow2, res, hS.pow_res]

theorem resV_mul (hS : S.Lawful) (v : List ℤ) (x : ℤ) : resV (Vec.mul S v x) = PoL.Vec.mul (resV v) (res x) := by
  simp [Vec.mul, PoL.Vec.mul, resV, hS.mul_res, res]

theorem resV_powerSeriesLoop (hS : S.Lawful) (exp : ℤ) : ∀ (k : ℕ) (next : ℤ),
    resV (powerSeriesLoop S exp k next) = PoL.powerSeriesLoop (res exp) k (res next)
  | 0, _ => rfl
  | k + 1, next => by
    have := resV_powerSeriesLoop hS exp k (S.mul next exp)
    simp only [powerSeriesLoop, PoL.powerSeriesLoop, resV, List.map_cons, res] at this ⊢
    rw [this, hS.mul_res]

theorem resV_powerSeries (hS : S.Lawful) (n : ℕ) (x : ℤ) : resV (powerSeries S n x) = PoL.powerSeries n (res x) := by
  unfold powerSeries PoL.powerSeries
  rw [resV_powerSeriesLoop hS]
  simp [res]

theorem sim_add (hS : S.Lawful) (v w : List ℤ) : (Vec.add S v w).map resV = PoL.Vec.add (resV v) (resV w) := by
  unfold Vec.add PoL.Vec.add
  simp only [resV_length]
  split_ifs
  · rfl
  · rw [Option.map_some, resV_zipWith]
    intro a b
    simp only [res]
    rw [res_mod, hS.plus_res]

theorem sim_sub (hS : S.Lawful) (v w : List ℤ) : (Vec.sub S v w).map resV = PoL.Vec.sub (resV v) (resV w) := by
  unfold Vec.sub PoL.Vec.sub
  simp only [resV_length]
  split_ifs
  · rfl
  · rw [Option.map_some, resV_zipWith]
    intro a b
    have := res_negZr hS b
    simp only [res] at this ⊢
    rw [res_mod, hS.plus_res, this]

theorem sim_hadamard (hS : S.Lawful) (v w : List ℤ) :
    (Vec.hadamardProd S v w).map resV = PoL.Vec.hadamardProd (resV v) (resV w) := by
  unfold Vec.hadamardProd PoL.Vec.hadamardProd
  simp only [resV_length]
  split_ifs
  · rfl
  · rw [Option.map_some, resV_zipWith]
    exact fun a b => hS.mul_res a b

theorem res_foldl_plus (hS : S.Lawful) : ∀ (l : List ℤ) (a : ℤ), res (l.foldl S.plus a) = (resV l).foldl (· + ·) (res a)
  | [], _ => rfl
  | x :: l, a => by
    have := res_foldl_plus hS l (S.plus a x)
    simp only [List.foldl_cons, resV, List.map_cons, res] at this ⊢
    rw [this, hS.plus_res]

theorem res_foldl_mul (hS : S.Lawful) : ∀ (l : List ℤ) (a : ℤ), res (l.foldl S.mul a) = (resV l).foldl (· * ·) (res a)
  | [], _ => rfl
  | x :: l, a => by
    have := res_foldl_mul hS l (S.mul a x)
    simp only [List.foldl_cons, resV, List.map_cons, res] at this ⊢
    rw [this, hS.mul_res]

theorem sim_innerProd (hS : S.Lawful) (v w : List ℤ) :
    (Vec.innerProd S v w).map res = PoL.Vec.innerProd (resV v) (resV w) := by
  unfold Vec.innerProd PoL.Vec.innerProd
  simp only [resV_length]
  split_ifs
  · rfl
  · rw [Option.map_some]
    have := res_foldl_plus hS (List.zipWith S.mul v w) 0
    rw [resV_zipWith (fun a b => hS.mul_res a b)] at this
    rw [← show res 0 = 0 by simp [res], ← this]
    exact congrArg some (res_mod _)

theorem innerProd_reduced {v w : List ℤ} {c : ℤ} (h : Vec.innerProd S v w = some c) : Reduced c := by
  unfold Vec.innerProd at h
  split_ifs at h
  rw [← Option.some.inj h]
  exact reduced_mod _

theorem sim_evens (v : List ℤ) : (Vec.evens v).map resV = PoL.Vec.evens (resV v) := by
  unfold Vec.evens PoL.Vec.evens
  have h : ∀ l : List ℤ, (PoL.Vec.everySecond l).map res = PoL.Vec.everySecond (l.map res) := by
    intro l
    induction l using PoL.Vec.everySecond.induct <;> simp_all [PoL.Vec.everySecond]
  simp only [resV, List.length_map]
  split_ifs
  · rfl
  · exact congrArg some (h v)

theorem sim_odds (v : List ℤ) : (Vec.odds v).map resV = PoL.Vec.odds (resV v) := by
  unfold Vec.odds PoL.Vec.odds
  have h : ∀ l : List ℤ, (PoL.Vec.everySecond l).map res = PoL.Vec.everySecond (l.map res) := by
    intro l
    induction l using PoL.Vec.everySecond.induct <;> simp_all [PoL.Vec.everySecond]
  simp only [resV, List.length_map]
  split_ifs
  · rfl
  · rw [Option.map_some, ← List.map_tail]
    exact congrArg some (h v.tail)

theorem sim_product (hS : S.Lawful) (v : List ℤ) : (Vec.product S v).map res = PoL.Vec.product (resV v) := by
  cases v with
  | nil => rfl
  | cons x xs =>
    simp only [Vec.product, PoL.Vec.product, resV, List.map_cons, Option.map_some]
    rw [res_foldl_mul hS]

theorem sim_powBitVec (v : List ℤ) (b : List ℕ) : (Vec.powBitVec v b).map resV = PoL.Vec.powBitVec (resV v) b := by
  unfold Vec.powBitVec PoL.Vec.powBitVec
  simp only [resV, List.length_map]
  split_ifs
  · rfl
  · rw [Option.map_some]
    have := zipWith_map_map (f := fun (x : ℤ) (b : ℕ) => if b = 0 then 1 else x)
      (f' := fun (x : Zr) (b : ℕ) => if b = 0 then 1 else x) (p := res) (q := id) (r := res)
      (by intro a c; simp only [id]; split_ifs <;> simp [res]) v b
    rw [List.map_id] at this
    exact congrArg some this

theorem exp_eq (v : List ℤ) (g : List G1) : Vec.exp v g = PoL.Vec.exp (resV v) g := by
  unfold Vec.exp PoL.Vec.exp
  simp only [resV, List.length_map]
  split_ifs
  · rfl
  · cases v with
    | nil => rfl
    | cons x xs =>
      cases g with
      | nil => rfl
      | cons h hs =>
        simp only [List.map_cons]
        rw [List.zipWith_map_left]

theorem gMul_eq {M : Type} [AddCommGroup M] [Module Zr M] (g : List M) (x : ℤ) : gMul g x = Gv.mul g (res x) := rfl

theorem mulV_eq (hS : S.Lawful) {M : Type} [AddCommGroup M] [Module Zr M] (g : List M) (v : List ℤ) :
    mulV S g v = Gv.mulV g (resV v) := by
  unfold mulV Gv.mulV
  simp only [resV, List.length_map]
  split_ifs
  · rfl
  · rw [List.zipWith_map_right]
    congr 2
    funext h x
    by_cases h1 : res x = 0
    · rw [if_pos h1]
      split_ifs
      · rfl
      · rw [h1, zero_smul]
    · rw [if_neg h1, if_neg]
      intro he
      exact h1 (by simpa [res] using hS.equals_res x 0 he)

theorem mulv2_eq {M : Type} [AddCommGroup M] [Module Zr M] (g : List M) (v : List ℤ) :
    mulv2 g v = Gv.mulv2 g (resV v) := by
  unfold mulv2 Gv.mulv2
  simp only [resV, List.length_map]
  split_ifs
  · rfl
  · rw [List.zipWith_map_right]

theorem sim_fe (d : Bytes) : (fieldElementFromBytes d).map res = PoL.fieldElementFromBytes d := by
  unfold fieldElementFromBytes
  rw [Option.map_map]
  cases PoL.fieldElementFromBytes d with
  | none => rfl
  | some x => exact congrArg some (res_canon x)

theorem fe_reduced {d : Bytes} {x : ℤ} (h : fieldElementFromBytes d = some x) : Reduced x := by
  unfold fieldElementFromBytes at h
  obtain ⟨y, -, rfl⟩ := Option.map_eq_some_iff.1 h
  exact reduced_canon y

theorem bits_eq (hS : S.Lawful) {x : ℤ} (h : Reduced x) (n : ℕ) : bits S x n = PoL.bits (res x) n := by
  unfold bits PoL.bits
  rw [hS.bytes_red x h]

theorem vbits_eq (hS : S.Lawful) (v : List ℤ) (h : ∀ x ∈ v, Reduced x) (n : ℕ) :
    Vec.vbits S v n = PoL.Vec.vbits (resV v) n := by
  unfold Vec.vbits PoL.Vec.vbits
  rw [resV, List.flatMap_map]
  exact List.flatMap_congr fun x hx => bits_eq hS (h x hx) n

/-! ## `bp/innerprod.go` -/

open BP

theorem commit_eq (pp : BP.PP G1) (a b : List ℤ) : commit pp a b = BP.commit pp (resV a) (resV b) false := by
  unfold commit BP.commit
  simp only [resV, List.length_map, List.zipWith_map_left, Bool.false_eq_true, if_false, Option.pure_def]

/-- The argument of the first model. -/
def InnerProdArgument.res (p : InnerProdArgument G1) : BP.InnerProdArgument G1 := ⟨p.pp, resV p.a, resV p.b, p.C, p.P⟩

theorem sim_newIpa (hS : S.Lawful) (pp : BP.PP G1) (a b : List ℤ) :
    (newInnerProdArgument S pp a b).map InnerProdArgument.res = BP.newInnerProdArgument pp (resV a) (resV b) := by
  unfold newInnerProdArgument BP.newInnerProdArgument
  simp only [Option.bind_eq_bind, Option.pure_def, commit_eq]
  exact sim_bind (sim_innerProd hS a b) fun C _ => sim_same fun P _ => rfl

theorem instance_eq (hS : S.Lawful) (E : Curve G1 G2 GT) (pp : BP.PP G1) (P : G1) (c : ℤ) :
    computeInstanceSpecificParams S E pp P c = BP.computeInstanceSpecificParams E pp P (PoL.res c) := by
  have h : (computeInstanceSpecificParams S E pp P c).map id = BP.computeInstanceSpecificParams E pp P (PoL.res c) := by
    unfold computeInstanceSpecificParams BP.computeInstanceSpecificParams
    simp only [Option.bind_eq_bind, Option.pure_def]
    refine sim_bind (sim_fe _) fun x _ => sim_same fun pp' _ => ?_
    simp only [Option.map_some, id, PoL.res, hS.mul_res]
  rwa [Option.map_id, id] at h

/-- The parameters of the first model. -/
def NextParams.res (p : NextParams G1) : BP.NextParams G1 := ⟨p.x, p.xInverse, p.g, p.h, p.P⟩

theorem sim_next (hS : S.Lawful) (E : Curve G1 G2 GT) (L R : G1) (pp : BP.PP G1) (g h : List G1) (P : G1) :
    (computeNextParams S E L R pp g h P).map NextParams.res = BP.computeNextParams E L R pp g h P := by
  unfold computeNextParams BP.computeNextParams
  simp only [Option.bind_eq_bind, Option.pure_def, gMul_eq, PoL.res, hS.inv_res, hS.mul_res]
  refine sim_bind (sim_fe _) fun x _ => sim_same fun a _ => sim_same fun b _ => sim_same fun c _ => sim_same fun d _ =>
    sim_same fun e _ => sim_same fun f _ => ?_
  simp only [Option.map_some, NextParams.res, PoL.res, hS.inv_res]

variable [DecidableEq G1]

theorem verifyLoop_eq (hS : S.Lawful) (E : Curve G1 G2 GT) (pp : BP.PP G1) (a b : ℤ) :
    ∀ (LRs : List G1) (P : G1) (g h : List G1),
      verifyLoop S E pp P g h LRs a b = BP.verifyLoop E pp P g h LRs (res a) (res b)
  | [], P, g, h => by
    unfold verifyLoop BP.verifyLoop
    simp only [PoL.res, hS.mul_res]
  | [_], P, g, h => by
    unfold verifyLoop BP.verifyLoop
    simp only [PoL.res, hS.mul_res]
  | L :: R :: LRs, P, g, h => by
    rw [verifyLoop, BP.verifyLoop]
    simp only [PoL.res, hS.mul_res, ← sim_next hS]
    split_ifs
    · rfl
    · cases computeNextParams S E L R pp g h P with
      | none => rfl
      | some np => exact verifyLoop_eq hS E pp a b LRs np.P np.g np.h

theorem ipp_verify_eq (hS : S.Lawful) (E : Curve G1 G2 GT) (p : InnerProductProof G1) (pp : BP.PP G1) :
    p.verify S E pp = p.res.verify E pp := by
  unfold InnerProductProof.verify BP.InnerProductProof.verify
  simp only [instance_eq hS, InnerProductProof.res, verifyLoop_eq hS]

/-- The final scalars of the first model. -/
def resAB (x : List G1 × ℤ × ℤ) : List G1 × Zr × Zr := (x.1, res x.2.1, res x.2.2)

/-- A step whose two sides are equal, for results of another type. -/
theorem sim_eq {α γ δ : Type} {d : γ → δ} {x y : Option α} {k : α → Option γ} {k' : α → Option δ} (e : x = y)
    (hk : ∀ a, x = some a → (k a).map d = k' a) : (x.bind k).map d = y.bind k' := by
  subst e
  exact sim_same hk

/-- The halves and `L`, `R` of the first model. -/
def resLR (x : List ℤ × List ℤ × List ℤ × List ℤ × G1 × G1) : List Zr × List Zr × List Zr × List Zr × G1 × G1 :=
  (resV x.1, resV x.2.1, resV x.2.2.1, resV x.2.2.2.1, x.2.2.2.2)

omit [DecidableEq G1] in
theorem sim_lr (hS : S.Lawful) (pp : BP.PP G1) (a b : List ℤ) (g h : List G1) :
    (lr S pp a b g h).map resLR = Ptr.BP.lr pp (resV a) (resV b) g h := by
  refine sim_bind (sim_sliceTo a _) fun aL _ => sim_bind (sim_sliceFrom a _) fun aR _ => ?_
  refine sim_bind (sim_sliceTo b _) fun bL _ => sim_bind (sim_sliceFrom b _) fun bR _ => ?_
  refine sim_bind (sim_innerProd hS aL bR) fun cL _ => sim_bind (sim_innerProd hS aR bL) fun cR _ => ?_
  refine sim_same fun g2 _ => sim_eq (exp_eq aL g2) fun Lg _ => ?_
  refine sim_same fun h1 _ => sim_eq (exp_eq bR h1) fun Lh _ => ?_
  refine sim_same fun g1 _ => sim_eq (exp_eq aR g1) fun Rg _ => ?_
  refine sim_same fun h2 _ => sim_eq (exp_eq bL h2) fun Rh _ => ?_
  rfl

omit [DecidableEq G1] in
theorem sim_proveLoop (hS : S.Lawful) (E : Curve G1 G2 GT) (pp : BP.PP G1) :
    ∀ (fuel : ℕ) (a b : List ℤ) (P : G1) (g h : List G1), g.length < fuel →
      (proveLoop S E pp fuel a b P g h).map resAB = BP.proveLoop E pp (resV a) (resV b) P g h := by
  intro fuel
  induction fuel with
  | zero => intro a b P g h hf; omega
  | succ fuel ih =>
    intro a b P g h hf
    rw [proveLoop]
    split_ifs with h1 h2 h3
    · rw [BP.proveLoop, if_pos h1]
      rfl
    · rw [BP.proveLoop, if_neg h1, if_pos h2]
      simp only [Option.bind_eq_bind, Option.pure_def]
      exact sim_bind (sim_getElem a 0) fun _ _ => sim_bind (sim_getElem b 0) fun _ _ => rfl
    · rw [BP.proveLoop, if_neg h1, if_neg h2, if_pos h3]
      rfl
    · rw [Ptr.BP.proveLoop_step (by simpa using h1) h2 h3]
      refine sim_bind (sim_lr hS pp a b g h) fun r _ => ?_
      obtain ⟨aL, aR, bL, bR, L, R⟩ := r
      refine sim_bind (sim_next hS E L R pp g h P) fun np hnp => ?_
      refine sim_bind (c := resV) ?_ fun a' _ => sim_bind (c := resV) ?_ fun b' _ => sim_bind (ih a' b' np.P np.g np.h ?_) fun ab _ => ?_
      · rw [sim_add hS, resV_mul hS, resV_mul hS]
        rfl
      · rw [sim_add hS, resV_mul hS, resV_mul hS]
        rfl
      · have := BP.computeNextParams_g_length ((sim_next hS E L R pp g h P).symm.trans (congrArg (Option.map NextParams.res) hnp))
        change np.g.length = _ at this
        omega
      · rfl

omit [DecidableEq G1] in
theorem sim_prove (hS : S.Lawful) (E : Curve G1 G2 GT) (ipa : InnerProdArgument G1) :
    (ipa.prove S E).map InnerProductProof.res = ipa.res.prove E := by
  refine sim_eq (instance_eq hS E ipa.pp ipa.P ipa.C) fun r _ => ?_
  obtain ⟨pp, P⟩ := r
  refine sim_bind (sim_proveLoop hS E pp _ ipa.a ipa.b P ipa.pp.G ipa.pp.H (Nat.lt_succ_self _)) fun r _ => ?_
  rfl

/-! ## `bp/ir.go` -/

omit [DecidableEq G1] in
theorem sim_irChallenge (E : Curve G1 G2 GT) (d : Bytes) (A B V : G1) :
    (irChallenge E d A B V).map res = BP.irChallenge E d A B V := sim_fe _

/-- The challenges and the final scalar of the first model. -/
def resXs (x : List ℤ × ℤ) : List Zr × Zr := (resV x.1, res x.2)

theorem sim_iterVerifyLoop (hS : S.Lawful) (E : Curve G1 G2 GT) (d : Bytes) (vF : ℤ) :
    ∀ (k n : ℕ), n ≤ k → ∀ (G : List G1) (pv : G1) (Δ : List (G1 × G1 × G1)) (fv : Option G1) (xs : List ℤ),
      (iterVerifyLoop S E d vF n G pv Δ fv xs).map (Option.map resXs)
        = BP.iterVerifyLoop E d (res vF) n G pv Δ fv (resV xs) := by
  intro k
  induction k with
  | zero =>
    intro n hn G pv Δ fv xs
    rw [iterVerifyLoop.eq_def, BP.iterVerifyLoop.eq_def, dif_pos (by omega), dif_pos (by omega)]
    refine sim_same fun g0 _ => sim_same fun f _ => ?_
    split_ifs <;> rfl
  | succ k ih =>
    intro n hn G pv Δ fv xs
    by_cases h0 : n = 0
    · exact ih n (by omega) G pv Δ fv xs
    · rw [iterVerifyLoop.eq_def, BP.iterVerifyLoop.eq_def, dif_neg h0, dif_neg h0]
      match Δ with
      | [] => rfl
      | (A, B, V) :: Δ' =>
        refine sim_bind (sim_irChallenge E d A B pv) fun x _ => ?_
        dsimp only
        rw [show PoL.res (S.inv x) = (PoL.res x)⁻¹ from hS.inv_res x]
        split_ifs with hV
        · rfl
        · refine sim_same fun G1 _ => sim_same fun G2 _ => sim_eq ?_ fun G' _ => ?_
          · rw [gMul_eq, show PoL.res (S.inv x) = (PoL.res x)⁻¹ from hS.inv_res x]
          · rw [ih (n / 2) (by omega) G' V Δ' (some V) (xs ++ [x])]
            simp [resV]

theorem sim_iterativeVerify (hS : S.Lawful) (E : Curve G1 G2 GT) (pp : BP.PP G1) (pv : G1) (Δ : List (G1 × G1 × G1))
    (vF : ℤ) : (iterativeVerify S E pp pv Δ vF).map (Option.map resXs) = BP.iterativeVerify E pp pv Δ (res vF) := by
  refine sim_same fun b _ => ?_
  split_ifs
  · rfl
  · exact sim_iterVerifyLoop hS E _ vF _ _ le_rfl _ _ _ _ _

/-- The rounds, challenges and final scalar of the first model. -/
def resRed (x : List (G1 × G1 × G1) × List ℤ × ℤ) : List (G1 × G1 × G1) × List Zr × Zr := (x.1, resV x.2.1, res x.2.2)

theorem sim_iterReduceLoop (hS : S.Lawful) (E : Curve G1 G2 GT) (d : Bytes) :
    ∀ (k n : ℕ), n ≤ k → ∀ (G : List G1) (v : List ℤ) (V : G1) (Δ : List (G1 × G1 × G1)) (xs : List ℤ),
      (iterReduceLoop S E d n G v V Δ xs).map resRed = BP.iterReduceLoop E d n G (resV v) V Δ (resV xs) := by
  intro k
  induction k with
  | zero =>
    intro n hn G v V Δ xs
    rw [iterReduceLoop.eq_def, BP.iterReduceLoop.eq_def, dif_pos (by omega), dif_pos (by omega)]
    match v with
    | [] => rfl
    | [_] => rfl
    | _ :: _ :: _ => rfl
  | succ k ih =>
    intro n hn G v V Δ xs
    by_cases h0 : n = 0
    · exact ih n (by omega) G v V Δ xs
    · rw [iterReduceLoop.eq_def, BP.iterReduceLoop.eq_def, dif_neg h0, dif_neg h0]
      refine sim_same fun GL _ => sim_same fun GR _ => sim_bind (sim_sliceTo v n) fun vL _ =>
        sim_bind (sim_sliceFrom v n) fun vR _ => sim_eq (mulV_eq hS GL vR) fun m1 _ => sim_same fun A _ =>
        sim_eq (mulV_eq hS GR vL) fun m2 _ => sim_same fun B _ => sim_bind (sim_irChallenge E d A B V) fun x _ =>
        sim_eq ?_ fun G' _ => sim_bind (c := resV) ?_ fun v' _ => sim_eq (mulV_eq hS G' v') fun m3 _ =>
        sim_same fun V' _ => ?_
      · rw [gMul_eq, show PoL.res (S.inv x) = (PoL.res x)⁻¹ from hS.inv_res x]
      · rw [sim_add hS, resV_mul hS]
      · rw [ih (n / 2) (by omega)]
        simp [resV]

theorem sim_iterativeReduce (hS : S.Lawful) (E : Curve G1 G2 GT) (pp : BP.PP G1) (v : List ℤ) (V : G1) :
    (iterativeReduce S E pp v V).map resRed = BP.iterativeReduce E pp (resV v) V := by
  refine sim_same fun b _ => ?_
  split_ifs
  · rfl
  · exact sim_iterReduceLoop hS E _ _ _ le_rfl _ _ _ _ _

end Raw
end PoL
