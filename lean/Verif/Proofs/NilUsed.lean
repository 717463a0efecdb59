import Verif.Proofs.Nil

/-!
# Pointers that are used
-/

set_option linter.unusedSectionVars false

namespace PoL.Ptr

open Spec

variable {G1 G2 GT : Type} {M α β γ : Type}

/-- If the computation returns a result with `P`, then `r` is not `nil`. -/
class Needs (P : α → Prop) (m : Run (Cell G1 G2 GT) α) (r : Ref) : Prop where
  out : ∀ ⦃h a h₁⦄, m h = some (a, h₁) → P a → ¬IsNil h r

theorem Needs.left {m : Run (Cell G1 G2 GT) α} {f : α → Run (Cell G1 G2 GT) β} {P : β → Prop} {r : Ref}
    (hm : Needs (fun _ => True) m r) : Needs P (m >>= f) r :=
  ⟨fun _ _ _ e _ => by
    obtain ⟨a, h₁, e₁, _⟩ := run_bind.1 e
    exact hm.out e₁ trivial⟩

theorem Needs.right {m : Run (Cell G1 G2 GT) α} {f : α → Run (Cell G1 G2 GT) β} {P : β → Prop} {r : Ref} [hm : Mono m]
    (hf : ∀ a, Needs P (f a) r) : Needs P (m >>= f) r :=
  ⟨fun _ _ _ e hp hr => by
    obtain ⟨a, h₁, e₁, e₂⟩ := run_bind.1 e
    exact (hf a).out e₂ hp ((hm.out e₁).1 r hr)⟩

theorem Needs.pure {a : α} {P : α → Prop} {r : Ref} (ha : ¬P a) : Needs P (pure a : Run (Cell G1 G2 GT) α) r :=
  ⟨fun _ _ _ e hp => absurd ((Prod.mk.inj (Option.some.inj e)).1 ▸ hp : P a) ha⟩

instance Needs.crash {P : α → Prop} {r : Ref} : Needs P (crash : Run (Cell G1 G2 GT) α) r :=
  ⟨fun _ _ _ e => nomatch (e : none = some _)⟩

theorem Needs.ite {p : Prop} [Decidable p] {m m' : Run (Cell G1 G2 GT) α} {P : α → Prop} {r : Ref} (hm : p → Needs P m r)
    (hm' : ¬p → Needs P m' r) : Needs P (if p then m else m') r := by
  split
  · exact hm ‹_›
  · exact hm' ‹_›

variable {k : Kind (Cell G1 G2 GT) M} [Typed k]

instance Needs.load {P : M → Prop} (r : Ref) : Needs P (load k r) r := ⟨fun _ _ _ e _ => load_not_nil e⟩

theorem Needs.loads {P : List M → Prop} {r : Ref} {g : List Ref} (hr : r ∈ g) : Needs P (loads k g) r := by
  unfold PoL.Ptr.loads
  induction g generalizing P with
  | nil => simp at hr
  | cons s g ih =>
    rw [List.mapM_cons]
    rcases List.mem_cons.1 hr with rfl | hr
    · exact Needs.left inferInstance
    · exact Needs.right fun _ => Needs.left (ih hr)

instance Needs.copy {P : Ref → Prop} (r : Ref) : Needs P (copy k r) r := Needs.left inferInstance

variable [AddCommGroup M] [Module Zr M]

instance Needs.mulBy {P : Ref → Prop} (r : Ref) (a : Zr) : Needs P (mulBy k r a) r := Needs.left inferInstance
instance Needs.addTo_left {P : Unit → Prop} (r s : Ref) : Needs P (addTo k r s) r := Needs.left inferInstance
instance Needs.addTo_right {P : Unit → Prop} (r s : Ref) : Needs P (addTo k r s) s := Needs.right fun _ => Needs.left inferInstance

local instance {f : α → Run (Cell G1 G2 GT) β} [hf : ∀ a, Mono (f a)] (l : List α) : Mono (l.mapM f) := Mono.mapM hf l
local instance {f : α → Run (Cell G1 G2 GT) PUnit} [hf : ∀ a, Mono (f a)] (l : List α) : Mono (l.forM f) := Mono.forM hf l
local instance {m : Run (Cell G1 G2 GT) α} {f : α → Run (Cell G1 G2 GT) β} [hm : Mono m] [hf : ∀ a, Mono (f a)] : Mono (m >>= f) :=
  Mono.bind hm hf

/-- All steps towards `Needs`. -/
macro "needs" : tactic => `(tactic| repeat' first
  | infer_instance
  | (with_reducible apply Needs.left; infer_instance)
  | (with_reducible apply Needs.right; intro _)
  | (apply Needs.pure; simp; done)
  | with_reducible apply Needs.ite | intro _ | split)

variable [AddCommGroup G1] [Module Zr G1] [AddCommGroup G2] [Module Zr G2] [AddCommGroup GT] [Module Zr GT] {E : Curve G1 G2 GT}

theorem needs_pairProd {P : Ref → Prop} {a b : List Ref} {r : Ref} (hr : r ∈ a) : Needs P (pairProd E a b) r := by
  unfold pairProd
  split
  · infer_instance
  next hl =>
    match a, b, hr, hl with
    | p :: ps, q :: qs, hr, hl =>
      rcases List.mem_cons.1 hr with rfl | hr
      · needs
      · have key : ∀ (ps qs : List Ref), r ∈ ps → ps.length = qs.length → ∀ prod, Needs (fun _ => True) ((ps.zip qs).forM fun e =>
            (load kG1 e.1 >>= fun x => load kG2 e.2 >>= fun y => PoL.Ptr.new kGt (E.pair x y) >>= fun x => addTo kGt prod x :
              Run (Cell G1 G2 GT) Unit)) r := by
          intro ps
          induction ps with
          | nil => intro qs hr; simp at hr
          | cons p ps ih =>
            intro qs hr hl prod
            cases qs with
            | nil => simp at hl
            | cons q qs =>
              rw [List.zip_cons_cons]
              rcases List.mem_cons.1 hr with rfl | hr
              · refine Needs.left ?_
                needs
              · refine Needs.right (hm := ?_) fun _ => ih qs hr (by simpa using hl) prod
                infer_instance
        have hl : ps.length = qs.length := by simpa using hl
        refine Needs.right fun _ => Needs.right fun _ => Needs.right fun _ => Needs.left ?_
        exact key ps qs hr hl _
    | _ :: _, [], _, hl => simp at hl
    | [], _, hr, _ => simp at hr

instance {P : Ref → Prop} (r : Ref) (b : List Ref) : Needs P (pairProd E [r] b) r := needs_pairProd (by simp)

namespace PP
variable [DecidableEq G1] [DecidableEq GT]

instance needs_verify_proof (gl : Globals) (pp : PP Ref Ref Ref) (mi : Zr) (π c : Ref) (i : ℕ) {P : Bool → Prop} :
    Needs P (verify E gl pp mi π c i) π := by unfold verify; needs
instance needs_verify_commitment (gl : Globals) (pp : PP Ref Ref Ref) (mi : Zr) (π c : Ref) (i : ℕ) {P : Bool → Prop} :
    Needs P (verify E gl pp mi π c i) c := by unfold verify; needs
instance needs_verifyAggregation (gl : Globals) (pp : PP Ref Ref Ref) (is : List ℕ) (cs : List Ref) (π : Ref) (sig : Zr) {P : Bool → Prop} :
    Needs P (verifyAggregation E gl pp is cs π sig) π := by unfold verifyAggregation; needs
theorem needs_verifyAggregation_commitment (gl : Globals) (pp : PP Ref Ref Ref) (is : List ℕ) (cs : List Ref) (π : Ref) (sig : Zr)
    {P : Bool → Prop} {c : Ref} (hc : c ∈ cs) : Needs P (verifyAggregation E gl pp is cs π sig) c := by
  unfold verifyAggregation
  have := fun P b => needs_pairProd (E := E) (P := P) (b := b) hc
  needs

end PP

namespace BP
open PoL.BP

instance needs_randomOracle_left (L R : Ref) (x : Bytes) {P : Bytes → Prop} : Needs P (randomOracle E L R x) L := by unfold randomOracle; needs
instance needs_randomOracle_right (L R : Ref) (x : Bytes) {P : Bytes → Prop} : Needs P (randomOracle E L R x) R := by unfold randomOracle; needs
instance needs_computeNextParams_left (L R : Ref) (pp : BP.PP Ref) (g h : List Ref) (p : Ref) {P : NextParams Ref → Prop} :
    Needs P (computeNextParams E L R pp g h p) L := by unfold computeNextParams; needs
instance needs_computeNextParams_right (L R : Ref) (pp : BP.PP Ref) (g h : List Ref) (p : Ref) {P : NextParams Ref → Prop} :
    Needs P (computeNextParams E L R pp g h p) R := by unfold computeNextParams; needs

theorem mapM_length {C : Type} {f : α → Run C β} {l : List α} {h h₁ : Mem C} {r : List β} (e : l.mapM f h = some (r, h₁)) :
    r.length = l.length := by
  induction l generalizing h r h₁ with
  | nil =>
    obtain rfl := (Prod.mk.inj (Option.some.inj (e : some ([], h) = some (r, h₁)))).1
    rfl
  | cons a l ih =>
    rw [List.mapM_cons] at e
    obtain ⟨x, h₂, e₁, e⟩ := run_bind.1 e
    obtain ⟨xs, h₃, e₂, e⟩ := run_bind.1 e
    obtain rfl := (Prod.mk.inj (Option.some.inj (e : some (x :: xs, h₃) = some (r, h₁)))).1
    rw [List.length_cons, List.length_cons, ih e₂]

theorem add_length {g g2 : List Ref} {h h₁ : Mem (Cell G1 G2 GT)} {r : List Ref} (e : Gv.add k g g2 h = some (r, h₁)) :
    r.length = g.length := by
  unfold Gv.add at e
  split at e
  · exact nomatch (e : none = some _)
  next hl => rw [mapM_length e, List.length_zip, Nat.min_eq_left (by omega)]

theorem lift_some {C : Type} {o : Option α} {h h₁ : Mem C} {a : α} (e : lift o h = some (a, h₁)) : o = some a ∧ h₁ = h := by
  cases o with
  | none => exact nomatch (e : none = some _)
  | some b =>
    have := Prod.mk.inj (Option.some.inj (e : some (b, h) = some (a, h₁)))
    exact ⟨congrArg some this.1, this.2.symm⟩

theorem next_length {L R : Ref} {pp : BP.PP Ref} {g h : List Ref} {p : Ref} {m m₁ : Mem (Cell G1 G2 GT)} {np : NextParams Ref}
    (e : computeNextParams E L R pp g h p m = some (np, m₁)) : np.g.length = g.length / 2 := by
  unfold computeNextParams at e
  obtain ⟨_, _, _, e⟩ := run_bind.1 e
  obtain ⟨_, _, _, e⟩ := run_bind.1 e
  obtain ⟨s, _, es, e⟩ := run_bind.1 e
  obtain ⟨gl, _, el, e⟩ := run_bind.1 e
  obtain ⟨_, _, _, e⟩ := run_bind.1 e
  obtain ⟨gr, _, _, e⟩ := run_bind.1 e
  obtain ⟨ng, _, en, e⟩ := run_bind.1 e
  obtain ⟨_, _, _, e⟩ := run_bind.1 e
  obtain ⟨_, _, _, e⟩ := run_bind.1 e
  obtain ⟨_, _, _, e⟩ := run_bind.1 e
  obtain ⟨_, _, _, e⟩ := run_bind.1 e
  obtain ⟨_, _, _, e⟩ := run_bind.1 e
  obtain ⟨_, _, _, e⟩ := run_bind.1 e
  obtain ⟨_, _, _, e⟩ := run_bind.1 e
  obtain ⟨_, _, _, e⟩ := run_bind.1 e
  obtain ⟨_, _, _, e⟩ := run_bind.1 e
  obtain ⟨_, _, _, e⟩ := run_bind.1 e
  obtain rfl := (Prod.mk.inj (Option.some.inj e)).1
  show ng.length = _
  rw [add_length en, mapM_length el]
  have hs := (lift_some es).1
  unfold sliceTo at hs
  split at hs
  · obtain rfl := Option.some.inj hs
    rw [List.length_take, Nat.min_eq_left (by omega)]
  · exact nomatch hs

variable [DecidableEq G1]

theorem needs_verifyLoop (pp : BP.PP Ref) (a b : Zr) {P : Bool → Prop} {r : Ref} (j : ℕ) : ∀ (LRs : List Ref) (p : Ref) (g h : List Ref),
    g.length = 2 ^ j → r ∈ LRs.take (2 * j) → Needs P (verifyLoop E pp p g h LRs a b) r := by
  induction j with
  | zero => intro LRs p g h hg hr; simp at hr
  | succ j ih =>
    intro LRs p g h hg hr
    have hne : g.length ≠ 1 := by
      rw [hg, pow_succ]
      have := Nat.one_le_two_pow (n := j)
      omega
    unfold verifyLoop
    rw [if_neg hne]
    match LRs, hr with
    | [], hr => simp at hr
    | [_], hr => exact Needs.crash
    | L :: R :: LRs, hr =>
      rw [show 2 * (j + 1) = 2 * j + 1 + 1 from rfl, List.take_succ_cons, List.take_succ_cons] at hr
      rcases List.mem_cons.1 hr with rfl | hr
      · exact Needs.left inferInstance
      rcases List.mem_cons.1 hr with rfl | hr
      · exact Needs.left inferInstance
      constructor
      intro m x m₁ e hp hn
      obtain ⟨np, m₂, e₁, e₂⟩ := run_bind.1 e
      have hg' : np.g.length = 2 ^ j := by rw [next_length e₁, hg, pow_succ, Nat.mul_div_cancel _ (by omega)]
      exact (ih LRs np.P np.g np.h hg' hr).out e₂ hp (((mono_computeNextParams _ _ _ _ _ _).out e₁).1 r hn)

theorem setupDigest_G {pp pp' : BP.PP Ref} {m m₁ : Mem (Cell G1 G2 GT)} (e : setupDigest E pp m = some (pp', m₁)) : pp'.G = pp.G := by
  obtain ⟨_, _, _, e⟩ := run_bind.1 e
  obtain rfl := (Prod.mk.inj (Option.some.inj e)).1
  rfl

theorem instance_G {pp : BP.PP Ref} {p : Ref} {c : Zr} {q : BP.PP Ref × Ref} {m m₁ : Mem (Cell G1 G2 GT)}
    (e : computeInstanceSpecificParams E pp p c m = some (q, m₁)) : q.1.G = pp.G := by
  unfold computeInstanceSpecificParams at e
  obtain ⟨_, _, _, e⟩ := run_bind.1 e
  obtain ⟨_, _, _, e⟩ := run_bind.1 e
  obtain ⟨_, _, _, e⟩ := run_bind.1 e
  obtain ⟨_, _, _, e⟩ := run_bind.1 e
  obtain ⟨_, _, _, e⟩ := run_bind.1 e
  obtain ⟨n, _, en, e⟩ := run_bind.1 e
  obtain rfl := (Prod.mk.inj (Option.some.inj e)).1
  exact (setupDigest_G en).trans rfl

theorem needs_ippVerify (ipp : InnerProductProof Ref) (pp : BP.PP Ref) {P : Bool → Prop} {r : Ref} {j : ℕ} (hj : pp.G.length = 2 ^ j)
    (hr : r ∈ roundPoints ipp j) : Needs P (InnerProductProof.verify E ipp pp) r := by
  constructor
  intro m x m₁ e hp hn
  obtain ⟨q, m₂, e₁, e₂⟩ := run_bind.1 e
  refine (needs_verifyLoop q.1 ipp.a ipp.b j ipp.LRs q.2 q.1.G q.1.H ?_ hr).out e₂ hp
    (((mono_computeInstanceSpecificParams _ _ _).out e₁).1 r hn)
  rw [instance_G e₁, hj]

instance needs_irChallenge (d : Bytes) (A B V : Ref) {P : Zr → Prop} : Needs P (irChallenge E d A B V) A := by unfold irChallenge; needs
instance needs_irChallenge' (d : Bytes) (A B V : Ref) {P : Zr → Prop} : Needs P (irChallenge E d A B V) B := by unfold irChallenge; needs

theorem needs_iterVerifyLoop (d : Bytes) (vF : Zr) {r : Ref} (j : ℕ) : ∀ (Δ : List (Ref × Ref × Ref)) (n : ℕ) (G : List Ref) (pV : Ref)
    (fV : Option Ref) (xs : List Zr), n = 2 ^ j / 2 → r ∈ (Δ.take j).flatMap (fun t => [t.1, t.2.1, t.2.2]) →
      Needs (fun o => o.isSome) (iterVerifyLoop E d vF n G pV Δ fV xs) r := by
  induction j with
  | zero => intro Δ n G pV fV xs hn hr; simp at hr
  | succ j ih =>
    intro Δ n G pV fV xs hn hr
    rw [pow_succ, Nat.mul_div_cancel _ (by omega)] at hn
    have hne : n ≠ 0 := by
      have := Nat.one_le_two_pow (n := j)
      omega
    unfold iterVerifyLoop
    rw [dif_neg hne]
    match Δ, hr with
    | [], hr => simp at hr
    | (A, B, V) :: Δ, hr =>
      rw [List.take_succ_cons, List.flatMap_cons] at hr
      dsimp only
      rcases List.mem_append.1 hr with hr | hr
      · simp only [List.mem_cons, List.not_mem_nil, or_false] at hr
        rcases hr with rfl | rfl | rfl
        · exact Needs.left inferInstance
        · exact Needs.left inferInstance
        · have := mono_iterVerifyLoop (E := E) d vF Δ
          needs
      · have := fun G pV fV xs => ih Δ (n / 2) G pV fV xs (by rw [hn]) hr
        have := mono_iterVerifyLoop (E := E) d vF Δ
        needs

theorem needs_iterativeVerify (pp : BP.PP Ref) (pV : Ref) (Δ : List (Ref × Ref × Ref)) (vF : Zr) {r : Ref} {j : ℕ}
    (hj : pp.G.length = 2 ^ j) (hr : r ∈ (Δ.take j).flatMap (fun t => [t.1, t.2.1, t.2.2])) :
    Needs (fun o => o.isSome) (iterativeVerify E pp pV Δ vF) r := by
  unfold iterativeVerify
  have := fun G pV fV xs => needs_iterVerifyLoop (E := E) pp.digest vF j Δ (pp.G.length / 2) G pV fV xs (by rw [hj]) hr
  needs

instance needs_RO1_W (pp : RPPP Ref) (V W Q : Ref) {P : Zr → Prop} : Needs P (rangeProofRO1 E pp V W Q) W := by unfold rangeProofRO1; needs
instance needs_RO1_Q (pp : RPPP Ref) (V W Q : Ref) {P : Zr → Prop} : Needs P (rangeProofRO1 E pp V W Q) Q := by unfold rangeProofRO1; needs
instance needs_rangeY (pp : RPPP Ref) (Q R : Ref) (x : Zr) (tag : UInt8) {P : Zr → Prop} : Needs P (rangeY E pp Q R x tag) R := by
  unfold rangeY; needs
instance needs_Z1 (pp : RPPP Ref) (C1 C2 Q R : Ref) (y0 y1 : Bytes) {P : Zr → Prop} : Needs P (computeZ E pp C1 C2 Q R y0 y1) C1 := by
  unfold computeZ; needs
instance needs_Z2 (pp : RPPP Ref) (C1 C2 Q R : Ref) (y0 y1 : Bytes) {P : Zr → Prop} : Needs P (computeZ E pp C1 C2 Q R y0 y1) C2 := by
  unfold computeZ; needs

theorem rdx_G {pp : RPPP Ref} {m m₁ : Mem (Cell G1 G2 GT)} {q : BP.PP Ref} (e : rangeRdxPP E pp m = some (q, m₁)) : q.G = pp.Gs := by
  obtain ⟨_, _, _, e⟩ := run_bind.1 e
  obtain ⟨_, _, _, e⟩ := run_bind.1 e
  exact (setupDigest_G e).trans rfl

theorem ipa_G {pp : RPPP Ref} {F : List Ref} {m m₁ : Mem (Cell G1 G2 GT)} {q : BP.PP Ref} (e : rangeIpaPP E pp F m = some (q, m₁)) :
    q.G = pp.Hs := by
  obtain ⟨_, _, _, e⟩ := run_bind.1 e
  obtain ⟨_, _, _, e⟩ := run_bind.1 e
  exact (setupDigest_G e).trans rfl

/-- A step whose result satisfies `Q`. -/
theorem _root_.PoL.Ptr.Needs.right' {m : Run (Cell G1 G2 GT) α} {f : α → Run (Cell G1 G2 GT) β} {P : β → Prop} {r : Ref} (Q : α → Prop) [hm : Mono m]
    (hq : ∀ {h a h₁}, m h = some (a, h₁) → Q a) (hf : ∀ a, Q a → Needs P (f a) r) : Needs P (m >>= f) r :=
  ⟨fun _ _ _ e hp hr => by
    obtain ⟨a, h₁, e₁, e₂⟩ := run_bind.1 e
    exact (hf a (hq e₁)).out e₂ hp ((hm.out e₁).1 r hr)⟩

/-- A step that needs `r` if what follows does not stop. -/
theorem _root_.PoL.Ptr.Needs.left' {m : Run (Cell G1 G2 GT) α} {f : α → Run (Cell G1 G2 GT) β} {P : β → Prop} {r : Ref} (Q : α → Prop)
    (hm : Needs Q m r) (hf : ∀ a, ¬Q a → ∀ {h b h₁}, f a h = some (b, h₁) → ¬P b) : Needs P (m >>= f) r :=
  ⟨fun _ b _ e hp => by
    obtain ⟨a, h₁, e₁, e₂⟩ := run_bind.1 e
    by_cases hq : Q a
    · exact hm.out e₁ hq
    · exact absurd hp (hf a hq e₂)⟩

theorem needs_verifyRangeState (gl : Globals) (pp : RPPP Ref) (rp : RangeProof Ref) (V : Ref) {r : Ref} {j j' : ℕ} (hj : pp.Gs.length = 2 ^ j)
    (hj' : pp.Hs.length = 2 ^ j') (hr : r ∈ rangeProofPoints rp j j') :
    Needs (fun o => o.1 = true) (verifyRangeState E gl pp rp V) r := by
  unfold rangeProofPoints at hr
  rcases List.mem_append.1 hr with hr | hr
  · rcases List.mem_append.1 hr with hr | hr
    · simp only [List.mem_cons, List.not_mem_nil, or_false] at hr
      unfold verifyRangeState
      rcases hr with rfl | rfl | rfl | rfl | rfl
      all_goals needs
    · unfold verifyRangeState
      refine Needs.right fun _ => Needs.right fun _ => Needs.right fun _ => Needs.right fun _ => Needs.right fun _ => ?_
      refine Needs.right' (fun q => q.G = pp.Gs) rdx_G fun q hq => ?_
      refine Needs.left' (fun o => o.isSome) (needs_iterativeVerify q _ _ _ (by rw [hq, hj]) hr) fun o ho => ?_
      intro h b h₁ e
      cases o with
      | none =>
        obtain rfl := (Prod.mk.inj (Option.some.inj e)).1
        simp
      | some _ => simp at ho
  · unfold verifyRangeState
    refine Needs.right fun _ => Needs.right fun _ => Needs.right fun _ => Needs.right fun _ => Needs.right fun _ => ?_
    refine Needs.right fun _ => Needs.right fun o => ?_
    cases o with
    | none => exact Needs.pure (by simp)
    | some o =>
      refine Needs.right fun _ => Needs.right fun _ => Needs.right fun _ => Needs.right fun _ => Needs.right fun _ => Needs.right fun _ => ?_
      refine Needs.right' (fun q => q.G = pp.Hs) ipa_G fun q hq => Needs.right fun p => ?_
      exact Needs.left (needs_ippVerify { rp.ipp with C := rp.c, P := p } q (by rw [hq, hj']) hr)

end BP

namespace Sum
open PoL.Sum
variable [DecidableEq G1]

instance needs_CVW (c : Zr) (V W : Ref) {P : Zr → Prop} : Needs P (randomOracleCVW E c V W) W := by unfold randomOracleCVW; needs

theorem ipa_G {pp : Sum.PP Ref} {m m₁ : Mem (Cell G1 G2 GT)} {q : BP.PP Ref} (e : ipaParams E pp m = some (q, m₁)) : q.G = pp.Gs :=
  (BP.setupDigest_G e).trans rfl

theorem needs_verifyAggregated (gl : Globals) (p : Proof Ref) (pp : Sum.PP Ref) (V : List Ref) {P : Bool × Proof Ref → Prop} {r : Ref} {j : ℕ}
    (hj : pp.Gs.length = 2 ^ j) (hr : r ∈ V ∨ r ∈ p.W :: roundPoints p.π j) : Needs P (verifyAggregated E gl p pp V) r := by
  unfold verifyAggregated
  rcases hr with hr | hr
  · unfold createHVZKChallenge
    exact Needs.left (Needs.left (Needs.loads hr))
  · refine Needs.right fun _ => Needs.right fun _ => ?_
    unfold verifyState
    rcases List.mem_cons.1 hr with rfl | hr
    · needs
    · refine Needs.right fun _ => Needs.right fun _ => Needs.right fun _ => Needs.right fun _ => Needs.right fun _ => Needs.right fun _ => ?_
      refine Needs.right' (fun q => q.G = pp.Gs) ipa_G fun q hq => ?_
      exact Needs.left (BP.needs_ippVerify { p.π with C := _, P := _ } q (by rw [hq, hj]) hr)

end Sum

namespace Poe
open PoL.Poe
variable [DecidableEq G1] [DecidableEq GT]

theorem needs_callRO (RO : ROFun G1) (gs : List Ref) (is : List ℕ) (d : Bytes) (n : ℕ) {P : List Zr → Prop} {r : Ref} (hr : r ∈ gs) :
    Needs P (callRO (G2 := G2) (GT := GT) RO gs is d n) r := Needs.left (Needs.loads hr)

theorem ipa_G {pp : Poe.PP Ref Ref Ref} {m m₁ : Mem (Cell G1 G2 GT)} {q : BP.PP Ref} (e : ipaParams E pp m = some (q, m₁)) : q.G = pp.G := by
  obtain ⟨_, _, _, e⟩ := run_bind.1 e
  obtain ⟨_, _, _, e⟩ := run_bind.1 e
  exact (BP.setupDigest_G e).trans rfl

theorem needs_eqsVerifyState (gl : Globals) (RO : ROFun G1) (e : Equalities Ref Ref Ref) (p : AggregatedProof Ref) {r : Ref} {j : ℕ}
    (hj : e.PP.G.length = 2 ^ j) (hr : r ∈ [p.U, p.V, p.Ω] ++ p.Vaggr ++ p.Waggr ++ roundPoints p.IPP j) :
    Needs (fun o => o.1 = true) (eqsVerifyState E gl RO e p) r := by
  unfold eqsVerifyState
  rcases List.mem_append.1 hr with hr | hr
  · rcases List.mem_append.1 hr with hr | hr
    · rcases List.mem_append.1 hr with hr | hr
      · simp only [List.mem_cons, List.not_mem_nil, or_false] at hr
        rcases hr with rfl | rfl | rfl
        · refine Needs.right fun _ => Needs.right fun _ => Needs.left (needs_callRO _ _ _ _ _ (by simp))
        · refine Needs.right fun _ => Needs.right fun _ => Needs.left (needs_callRO _ _ _ _ _ (by simp))
        · needs
      · exact Needs.left (needs_callRO _ _ _ _ _ (by simp [hr]))
    · exact Needs.left (needs_callRO _ _ _ _ _ (by simp [hr]))
  · repeat with_reducible refine Needs.right fun _ => ?_
    refine Needs.ite (fun _ => Needs.pure (by simp)) fun _ => ?_
    refine Needs.right fun _ => Needs.right fun _ => Needs.right fun _ => Needs.right fun _ => Needs.right fun _ => ?_
    refine Needs.right fun _ => Needs.right fun _ => Needs.right fun _ => Needs.right fun _ => ?_
    refine Needs.right' (fun q => q.G = e.PP.G) ipa_G fun q hq => ?_
    exact Needs.left (BP.needs_ippVerify { p.IPP with C := _, P := _ } q (by rw [hq, hj]) hr)

end Poe

namespace Pol
open PoL.Pol
variable [DecidableEq G1]

theorem verifyLoop_used (gl : Globals) (lp : LiabilityProof Ref) (pp : PublicParams Ref Ref Ref) (n : ℕ) {k : Rounds} (hk : RoundsOf pp k)
    (rest : ℕ) : ∀ (i : ℕ) (err : Bool) {h h₁ : Mem (Cell G1 G2 GT)}, verifyLoop E gl lp pp n i rest err h = some (some false, h₁) →
      err = false ∧ ∀ j rp, i ≤ j → j < i + rest → lp.rangeProofs[j]? = some rp → ∀ r ∈ rangeProofPoints rp k.reduction k.range, ¬IsNil h r := by
  induction rest with
  | zero =>
    intro i err h h₁ e
    unfold verifyLoop at e
    have := (Prod.mk.inj (Option.some.inj e)).1
    exact ⟨Option.some.inj this, fun j rp h1 h2 => absurd h2 (by omega)⟩
  | succ rest ih =>
    intro i err h h₁ e
    unfold verifyLoop at e
    split at e
    · exact nomatch (e : none = some _)
    obtain ⟨rp, h₂, e₁, f1⟩ := run_bind.1 e
    obtain ⟨v, h₃, e₂, f2⟩ := run_bind.1 f1
    obtain ⟨q, h₄, e₃, f3⟩ := run_bind.1 f2
    obtain ⟨erp, rfl⟩ := BP.lift_some e₁
    obtain ⟨_, rfl⟩ := BP.lift_some e₂
    have key : ∀ {h₅ : Mem (Cell G1 G2 GT)}, (∀ r, IsNil h₄ r → IsNil h₅ r) →
        verifyLoop E gl lp pp n (i + 1) rest (err || !q.1) h₅ = some (some false, h₁) →
        err = false ∧ ∀ j rp, i ≤ j → j < i + (rest + 1) → lp.rangeProofs[j]? = some rp → ∀ r ∈ rangeProofPoints rp k.reduction k.range, ¬IsNil h₃ r := by
      intro h₅ hn e
      obtain ⟨he, hu⟩ := ih _ _ e
      have he : err = false ∧ q.1 = true := by simpa using he
      refine ⟨he.1, fun j rp' h1 h2 hj r hr hnil => ?_⟩
      by_cases hij : j = i
      · subst hij
        obtain rfl := Option.some.inj (erp.symm.trans hj)
        exact (BP.needs_verifyRangeState gl pp.RPPP rp v hk.reduction hk.range hr).out e₃ he.2 hnil
      · exact hu j rp' (by omega) (by omega) hj r hr (hn r (((BP.mono_verifyRangeState _ _ _ _).out e₃).1 r hnil))
    split at f3
    · obtain ⟨ok, h₅, e₄, f4⟩ := run_bind.1 f3
      split at f4
      · exact nomatch (Prod.mk.inj (Option.some.inj f4)).1
      · exact key ((mono_checkLeaf _ _).out e₄).1 f4
    · split at f3
      · obtain ⟨ok, h₅, e₄, f5⟩ := run_bind.1 f3
        split at f5
        · exact nomatch (Prod.mk.inj (Option.some.inj f5)).1
        · exact key ((mono_checkInner _ _).out e₄).1 f5
      · exact key (fun _ hr => hr) f3

variable [DecidableEq GT]

theorem verify_used (gl : Globals) (lp : LiabilityProof Ref) (pp : PublicParams Ref Ref Ref) (id : Str) (V W : Ref)
    (f : Str → Option (List ℕ)) {k : Rounds} (hk : RoundsOf pp k) {path : List ℕ} (hp : f id = some path) {h h₁ : Mem (Cell G1 G2 GT)}
    (e : verify E gl lp pp id V W f h = some (true, h₁)) {r : Ref} (hr : r ∈ liabilityPoints lp path.length k ++ [V, W]) : ¬IsNil h r := by
  intro hn
  unfold verify at e
  obtain ⟨path', h₂, e₁, f6⟩ := run_bind.1 e
  obtain ⟨ep, rfl⟩ := BP.lift_some e₁
  obtain rfl := Option.some.inj (ep.symm.trans hp)
  split at f6
  · exact nomatch (Prod.mk.inj (Option.some.inj f6)).1
  obtain ⟨v0, h₃, e₂, f7⟩ := run_bind.1 f6
  obtain ⟨_, rfl⟩ := BP.lift_some e₂
  obtain ⟨x, h₄, e₃, f8⟩ := run_bind.1 f7
  obtain ⟨y, h₅, e₄, f9⟩ := run_bind.1 f8
  obtain rfl := (load_some.1 e₃).1
  obtain rfl := (load_some.1 e₄).1
  split at f9
  · exact nomatch (Prod.mk.inj (Option.some.inj f9)).1
  obtain ⟨w0, h₆, e₅, f10⟩ := run_bind.1 f9
  obtain ⟨_, rfl⟩ := BP.lift_some e₅
  obtain ⟨x', h₇, e₆, f11⟩ := run_bind.1 f10
  obtain ⟨y', h₈, e₇, f12⟩ := run_bind.1 f11
  obtain rfl := (load_some.1 e₆).1
  obtain rfl := (load_some.1 e₇).1
  split at f12
  · exact nomatch (Prod.mk.inj (Option.some.inj f12)).1
  obtain ⟨o, h₉, e₈, f13⟩ := run_bind.1 f12
  have n₉ := ((mono_verifyLoop gl lp pp path'.length path'.length 0 false).out e₈).1 r hn
  cases o with
  | none => exact nomatch (Prod.mk.inj (Option.some.inj f13)).1
  | some err =>
    obtain ⟨ok, h₁₀, e₉, f14⟩ := run_bind.1 f13
    have n₁₀ := ((PP.mono_verifyAggregation _ _ _ _ _ _).out e₉).1 r n₉
    split at f14
    · exact nomatch (Prod.mk.inj (Option.some.inj f14)).1
    obtain ⟨ok', h₁₁, e₁₀, f15⟩ := run_bind.1 f14
    have n₁₁ := ((Sum.mono_verifyAggregated _ _ _ _).out e₁₀).1 r n₁₀
    split at f15
    · exact nomatch (Prod.mk.inj (Option.some.inj f15)).1
    obtain ⟨zc, h₁₂, e₁₁, f16⟩ := run_bind.1 f15
    have n₁₂ := ((PP.mono_commit _ _ _).out e₁₁).1 r n₁₁
    obtain ⟨pd, h₁₃, e₁₂, f17⟩ := run_bind.1 f16
    obtain ⟨_, rfl⟩ := BP.lift_some e₁₂
    obtain ⟨eqs, h₁₄, e₁₃, f18⟩ := run_bind.1 f17
    obtain ⟨eeqs, rfl⟩ := BP.lift_some e₁₃
    have heq : eqs.PP.G.length = 2 ^ k.equality := by
      have : eqs.PP = pp.POEPP := by
        unfold equalitiesOf at eeqs
        obtain ⟨_, _, eeqs⟩ := Option.bind_eq_some_iff.1 eeqs
        obtain ⟨_, _, eeqs⟩ := Option.bind_eq_some_iff.1 eeqs
        obtain rfl := Option.some.inj eeqs
        rfl
      rw [this]
      exact hk.equality
    obtain ⟨ok'', h₁₅, e₁₄, f19⟩ := run_bind.1 f18
    have n₁₅ := ((Poe.mono_eqsVerifyState _ _ _ _).out e₁₄).1 r n₁₂
    split at f19
    · exact nomatch (Prod.mk.inj (Option.some.inj f19)).1
    next hok'' =>
    split at f19
    · exact nomatch (Prod.mk.inj (Option.some.inj f19)).1
    next herr =>
    obtain ⟨v, h₁₆, e₁₅, f20⟩ := run_bind.1 f19
    obtain ⟨_, rfl⟩ := BP.lift_some e₁₅
    obtain ⟨i, h₁₇, e₁₆, f21⟩ := run_bind.1 f20
    obtain ⟨_, rfl⟩ := BP.lift_some e₁₆
    unfold liabilityPoints at hr
    simp only [List.mem_append, List.mem_cons, List.not_mem_nil, or_false, List.mem_flatMap] at hr
    rcases hr with (((((((((((rfl | rfl) | hr) | hr) | ⟨rp, hrp, hr⟩) | rfl) | hr) | hr) | hr) | hr) | hr) | (rfl | rfl))
    · exact (PP.needs_verifyAggregation gl pp.PPPP _ lp.W lp.pointProof _ (P := fun _ => True)).out e₉ trivial n₉
    · exact (PP.needs_verify_proof gl pp.PPPP _ lp.total.liabilityProof v _ (P := fun _ => True)).out f21 trivial n₁₅
    · exact (Sum.needs_verifyAggregated gl lp.sumArgumentProof pp.SAPP lp.V (P := fun _ => True) hk.sum (.inl hr)).out e₁₀ trivial n₁₀
    · exact (PP.needs_verifyAggregation_commitment gl pp.PPPP _ lp.W lp.pointProof _ (P := fun _ => True) hr).out e₉ trivial n₉
    · obtain ⟨j, hj⟩ := List.mem_iff_getElem?.1 hrp
      have hlt : j < path'.length := by
        have := (List.getElem?_eq_some_iff.1 hj).1
        rw [List.length_take] at this
        omega
      rw [List.getElem?_take_of_lt hlt] at hj
      have herr : err = false := by simpa using herr
      subst herr
      exact (verifyLoop_used gl lp pp path'.length hk path'.length 0 false e₈).2 j rp (by omega) (by omega) hj r hr hn
    · exact (Sum.needs_verifyAggregated gl lp.sumArgumentProof pp.SAPP lp.V (P := fun _ => True) hk.sum (.inr (by simp))).out e₁₀ trivial n₁₀
    · exact (Sum.needs_verifyAggregated gl lp.sumArgumentProof pp.SAPP lp.V (P := fun _ => True) hk.sum (.inr (by simp [hr]))).out e₁₀ trivial
        n₁₀
    · exact (Poe.needs_eqsVerifyState gl _ eqs lp.equalityProof (j := k.equality) heq (by rcases hr with rfl | rfl | rfl <;> simp)).out e₁₄ (by simpa using hok'') n₁₂
    · exact (Poe.needs_eqsVerifyState gl _ eqs lp.equalityProof (j := k.equality) heq (by simp [hr])).out e₁₄ (by simpa using hok'') n₁₂
    · exact (Poe.needs_eqsVerifyState gl _ eqs lp.equalityProof (j := k.equality) heq (by simp [hr])).out e₁₄ (by simpa using hok'') n₁₂
    · exact (Poe.needs_eqsVerifyState gl _ eqs lp.equalityProof (j := k.equality) heq (by simp [hr])).out e₁₄ (by simpa using hok'') n₁₂
    · exact load_not_nil e₄ hn
    · exact load_not_nil e₇ hn

end Pol
end PoL.Ptr
