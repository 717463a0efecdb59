import Verif.Spec.Nil

/-!
# Computations on a memory with nil pointers
-/

set_option linter.unusedSectionVars false

namespace PoL.Ptr

open Spec

variable {G1 G2 GT : Type} {M α β γ : Type}

/-- If the computation returns, it does not matter what is put in the place of `nil`, and `nil` stays `nil`. -/
class Mono (m : Run (Cell G1 G2 GT) α) : Prop where
  out : ∀ ⦃h a h₁⦄, m h = some (a, h₁) → (∀ r, IsNil h r → IsNil h₁ r) ∧
    ∀ h', Filled h h' → ∃ h₁', m h' = some (a, h₁') ∧ Filled h₁ h₁'

/-- A kind of which `nil` is not. -/
class Typed (k : Kind (Cell G1 G2 GT) M) : Prop where
  get_nil : k.get .nil = none

instance : Typed (kG1 : Kind (Cell G1 G2 GT) G1) := ⟨rfl⟩
instance : Typed (kG2 : Kind (Cell G1 G2 GT) G2) := ⟨rfl⟩
instance : Typed (kGt : Kind (Cell G1 G2 GT) GT) := ⟨rfl⟩

theorem _root_.PoL.Spec.Filled.refl (h : Mem (Cell G1 G2 GT)) : Filled h h :=
  ⟨List.forall₂_same.2 fun _ _ => .inr rfl, rfl⟩

theorem _root_.PoL.Spec.Filled.get {h h' : Mem (Cell G1 G2 GT)} (f : Filled h h') {i : ℕ} {c : Cell G1 G2 GT} (hc : h.cells[i]? = some c)
    (hn : c ≠ .nil) : h'.cells[i]? = some c := by
  have key : ∀ {l l' : List (Cell G1 G2 GT)}, List.Forall₂ (fun c c' => c = .nil ∨ c = c') l l' → ∀ {i : ℕ}, l[i]? = some c → l'[i]? = some c := by
    intro l l' hl
    induction hl with
    | nil => intro i hi; simp at hi
    | cons a _ ih =>
      intro i hi
      cases i with
      | zero =>
        simp only [List.getElem?_cons_zero, Option.some.injEq] at hi ⊢
        rcases a with a | a
        · exact absurd (hi.symm.trans a) hn
        · exact a.symm.trans hi
      | succ i =>
        rw [List.getElem?_cons_succ] at hi ⊢
        exact ih hi
  exact key f.cells hc

instance Mono.pure (a : α) : Mono (pure a : Run (Cell G1 G2 GT) α) := by
  constructor
  intro h b h₁ e
  obtain ⟨rfl, rfl⟩ : a = b ∧ h = h₁ := by simpa using (Option.some.inj e : (a, h) = (b, h₁))
  exact ⟨fun _ hr => hr, fun h' f => ⟨h', rfl, f⟩⟩

instance Mono.crash : Mono (crash : Run (Cell G1 G2 GT) α) := .mk fun _ _ _ e => nomatch (e : none = some _)

instance Mono.lift (o : Option α) : Mono (lift o : Run (Cell G1 G2 GT) α) := by
  constructor
  intro h b h₁ e
  cases o with
  | none => exact nomatch (e : none = some _)
  | some a =>
    obtain ⟨rfl, rfl⟩ : a = b ∧ h = h₁ := by simpa using (Option.some.inj e : (a, h) = (b, h₁))
    exact ⟨fun _ hr => hr, fun h' f => ⟨h', rfl, f⟩⟩

theorem run_bind {C : Type} {m : Run C α} {f : α → Run C β} {h : Mem C} {b : β} {h₂ : Mem C} :
    (m >>= f) h = some (b, h₂) ↔ ∃ a h₁, m h = some (a, h₁) ∧ f a h₁ = some (b, h₂) := by
  show (m h).bind (fun p => f p.1 p.2) = _ ↔ _
  cases m h with
  | none => simp
  | some p => exact ⟨fun e => ⟨p.1, p.2, rfl, e⟩, fun ⟨a, h₁, e, e'⟩ => by cases e; exact e'⟩

theorem Mono.bind {m : Run (Cell G1 G2 GT) α} {f : α → Run (Cell G1 G2 GT) β} (hm : Mono m) (hf : ∀ a, Mono (f a)) : Mono (m >>= f) := by
  constructor
  intro h b h₂ e
  obtain ⟨a, h₁, e₁, e₂⟩ := run_bind.1 e
  obtain ⟨n₁, k₁⟩ := hm.out e₁
  obtain ⟨n₂, k₂⟩ := (hf a).out e₂
  refine ⟨fun r hr => n₂ r (n₁ r hr), fun h' f' => ?_⟩
  obtain ⟨h₁', e₁', f₁⟩ := k₁ h' f'
  obtain ⟨h₂', e₂', f₂⟩ := k₂ h₁' f₁
  exact ⟨h₂', run_bind.2 ⟨a, h₁', e₁', e₂'⟩, f₂⟩

theorem Mono.ite {p : Prop} [Decidable p] {m m' : Run (Cell G1 G2 GT) α} (hm : p → Mono m) (hm' : ¬p → Mono m') :
    Mono (if p then m else m') := by
  split
  · exact hm ‹_›
  · exact hm' ‹_›

variable {k : Kind (Cell G1 G2 GT) M} [Typed k]

theorem Typed.put_ne (k : Kind (Cell G1 G2 GT) M) [Typed k] (x : M) : k.put x ≠ .nil := fun e => by
  have := k.get_put x
  rw [e, Typed.get_nil] at this
  exact nomatch this

instance Mono.new (x : M) : Mono (new k x) := by
  constructor
  intro h b h₁ e
  obtain ⟨rfl, rfl⟩ := by simpa [PoL.Ptr.new] using e
  refine ⟨fun r hr => ?_, fun h' f =>
    ⟨{ h' with cells := h'.cells ++ [k.put x] }, ?_, ⟨List.rel_append f.cells (.cons (.inr rfl) .nil), f.written⟩⟩⟩
  · unfold IsNil at hr ⊢
    rw [List.getElem?_append_left (List.getElem?_eq_some_iff.1 hr).1]
    exact hr
  · rw [PoL.Ptr.new, f.cells.length_eq]

theorem load_some {r : Ref} {h h₁ : Mem (Cell G1 G2 GT)} {x : M} :
    load k r h = some (x, h₁) ↔ h₁ = h ∧ ∃ c, h.cells[r.addr]? = some c ∧ k.get c = some x := by
  unfold load
  cases hc : h.cells[r.addr]? with
  | none => simp
  | some c =>
    cases hx : k.get c with
    | none => simp [hx]
    | some y =>
      simp only [Option.bind_eq_bind, Option.bind_some, hx, Option.pure_def, Option.some.injEq, Prod.mk.injEq]
      constructor
      · rintro ⟨rfl, rfl⟩
        exact ⟨rfl, c, rfl, hx⟩
      · rintro ⟨rfl, c', rfl, e⟩
        exact ⟨Option.some.inj (hx.symm.trans e), rfl⟩

instance Mono.load (r : Ref) : Mono (load k r) := by
  constructor
  intro h x h₁ e
  obtain ⟨rfl, c, hc, hx⟩ := load_some.1 e
  refine ⟨fun _ hr => hr, fun h' f => ⟨h', load_some.2 ⟨rfl, c, f.get hc ?_, hx⟩, f⟩⟩
  rintro rfl
  rw [Typed.get_nil] at hx
  exact nomatch hx

/-- If a computation that loads `r` returns, `r` is not `nil`. -/
theorem load_not_nil {r : Ref} {h h₁ : Mem (Cell G1 G2 GT)} {x : M} (e : load k r h = some (x, h₁)) : ¬IsNil h r := by
  obtain ⟨_, c, hc, hx⟩ := load_some.1 e
  intro hn
  rw [IsNil, hc, Option.some.injEq] at hn
  rw [hn, Typed.get_nil] at hx
  exact nomatch hx

instance Mono.copy (r : Ref) : Mono (copy k r) := (Mono.load r).bind fun _ => Mono.new _

/-- A write to a cell that is not `nil`. -/
theorem store_step {r : Ref} {x : M} {h h₁ : Mem (Cell G1 G2 GT)} (hr : ¬IsNil h r) (e : store k r x h = some ((), h₁)) :
    (∀ s, IsNil h s → IsNil h₁ s) ∧ ∀ h', Filled h h' → ∃ h₁', store k r x h' = some ((), h₁') ∧ Filled h₁ h₁' := by
  unfold store at e ⊢
  split at e
  next hlt =>
    obtain rfl := (Prod.mk.inj (Option.some.inj e)).2
    refine ⟨fun s hs => ?_, fun h' f => ?_⟩
    · have hne : r.addr ≠ s.addr := fun he => hr (by rw [IsNil, he]; exact hs)
      unfold IsNil at hs ⊢
      rw [List.getElem?_set_ne hne]
      exact hs
    · refine ⟨_, if_pos (f.cells.length_eq ▸ hlt), ⟨?_, by rw [f.written]⟩⟩
      have key : ∀ {l l' : List (Cell G1 G2 GT)}, List.Forall₂ (fun c c' => c = .nil ∨ c = c') l l' → ∀ i : ℕ,
          List.Forall₂ (fun c c' => c = .nil ∨ c = c') (l.set i (k.put x)) (l'.set i (k.put x)) := by
        intro l l' hl
        induction hl with
        | nil => intro i; exact .nil
        | cons a b ih =>
          intro i
          cases i with
          | zero => exact .cons (.inr rfl) b
          | succ i => exact .cons a (ih i)
      exact key f.cells _
  next => exact nomatch e

variable [AddCommGroup M] [Module Zr M]

instance Mono.mulBy (r : Ref) (a : Zr) : Mono (mulBy k r a) := (Mono.load r).bind fun _ => Mono.new _

theorem Mono.update (r s : Ref) (f : M → M → M) :
    Mono (PoL.Ptr.load k r >>= fun x => PoL.Ptr.load k s >>= fun y => store k r (f x y)) := by
  constructor
  intro h u h₁ e
  obtain ⟨x, h₂, e₁, e⟩ := run_bind.1 e
  obtain ⟨y, h₃, e₂, e₃⟩ := run_bind.1 e
  have h2 := (load_some.1 e₁).1
  have h3 := (load_some.1 e₂).1
  subst h2; subst h3
  obtain ⟨n, g⟩ := store_step (load_not_nil e₁) e₃
  refine ⟨n, fun h' f' => ?_⟩
  obtain ⟨h₁', e₃', f₁⟩ := g h' f'
  obtain ⟨a, ea, fa⟩ := ((Mono.load r).out e₁).2 h' f'
  obtain ⟨b, eb, fb⟩ := ((Mono.load s).out e₂).2 h' f'
  have ha := (load_some.1 ea).1
  have hb := (load_some.1 eb).1
  subst ha; subst hb
  exact ⟨h₁', run_bind.2 ⟨x, _, ea, run_bind.2 ⟨y, _, eb, e₃'⟩⟩, f₁⟩

instance Mono.addTo (r s : Ref) : Mono (addTo k r s) := Mono.update r s (· + ·)

instance Mono.subFrom (r s : Ref) : Mono (subFrom k r s) := Mono.update r s (· - ·)

theorem Mono.mapM {f : α → Run (Cell G1 G2 GT) β} (hf : ∀ a, Mono (f a)) (l : List α) : Mono (l.mapM f) := by
  induction l with
  | nil => exact Mono.pure _
  | cons a l ih =>
    rw [List.mapM_cons]
    exact (hf a).bind fun _ => ih.bind fun _ => Mono.pure _

theorem Mono.forM {f : α → Run (Cell G1 G2 GT) PUnit} (hf : ∀ a, Mono (f a)) (l : List α) : Mono (l.forM f) := by
  induction l with
  | nil => exact Mono.pure _
  | cons a l ih =>
    exact (hf a).bind fun _ => ih

instance Mono.loads (g : List Ref) : Mono (loads k g) := Mono.mapM (fun r => Mono.load r) g

/-- All steps towards `Mono`. -/
macro "mono" : tactic => `(tactic| repeat' first
  | with_reducible apply Mono.bind
  | infer_instance
  | with_reducible apply Mono.mapM | with_reducible apply Mono.forM | with_reducible apply Mono.ite | intro _ | split)

namespace Gv

instance mono_add (g g2 : List Ref) : Mono (add k g g2) := by unfold add; mono
instance mono_mul (g : List Ref) (x : Zr) : Mono (mul k g x) := by unfold mul; mono
instance mono_mulV (z : Ref) (g : List Ref) (v : List Zr) : Mono (mulV k z g v) := by unfold mulV; mono
instance mono_mulv2 (g : List Ref) (x : List Zr) : Mono (mulv2 k g x) := by unfold mulv2; mono
instance mono_sum [DecidableEq M] (g : List Ref) : Mono (sum k g) := by
  cases g with
  | nil => exact Mono.crash
  | cons a g => unfold sum; mono

end Gv


variable [AddCommGroup G1] [Module Zr G1] [AddCommGroup G2] [Module Zr G2] [AddCommGroup GT] [Module Zr GT] {E : Curve G1 G2 GT}

instance mono_pairProd (a b : List Ref) : Mono (pairProd E a b) := by unfold pairProd; mono
instance mono_randGenVec (n : ℕ) (c : String) : Mono (randGenVec E n c) := by unfold randGenVec; mono


namespace PP
variable [DecidableEq G1] [DecidableEq GT]

instance mono_commit (gl : Globals) (pp : PP Ref Ref Ref) (m : List Zr) : Mono (commit (G1 := G1) (G2 := G2) (GT := GT) gl pp m) := by
  unfold commit; mono
instance mono_verify (gl : Globals) (pp : PP Ref Ref Ref) (mi : Zr) (π c : Ref) (i : ℕ) : Mono (verify E gl pp mi π c i) := by
  unfold verify; mono
instance mono_ro (pp : PP Ref Ref Ref) (cs : List Ref) (i : ℕ) : Mono (ro E pp cs i) := by unfold ro; mono


instance mono_verifyAggregation (gl : Globals) (pp : PP Ref Ref Ref) (is : List ℕ) (cs : List Ref) (π : Ref) (sig : Zr) :
    Mono (verifyAggregation E gl pp is cs π sig) := by unfold verifyAggregation; mono

end PP


namespace BP
open PoL.BP

instance mono_digestInput (pp : BP.PP Ref) : Mono (digestInput E pp) := by unfold digestInput; mono
instance mono_setupDigest (pp : BP.PP Ref) : Mono (setupDigest E pp) := by unfold setupDigest; mono
instance mono_computeInstanceSpecificParams (pp : BP.PP Ref) (P : Ref) (c : Zr) : Mono (computeInstanceSpecificParams E pp P c) := by
  unfold computeInstanceSpecificParams; mono
instance mono_randomOracle (L R : Ref) (x : Bytes) : Mono (randomOracle E L R x) := by unfold randomOracle; mono
instance mono_computeNextParams (L R : Ref) (pp : BP.PP Ref) (g h : List Ref) (P : Ref) : Mono (computeNextParams E L R pp g h P) := by
  unfold computeNextParams; mono

variable [DecidableEq G1]

theorem mono_verifyLoop (pp : BP.PP Ref) (a b : Zr) (LRs : List Ref) : ∀ (P : Ref) (g h : List Ref), Mono (verifyLoop E pp P g h LRs a b) := by
  induction LRs using List.twoStepInduction with
  | nil => intro P g h; unfold verifyLoop; mono
  | singleton L => intro P g h; unfold verifyLoop; mono
  | cons_cons L R LRs ih _ =>
    intro P g h
    unfold verifyLoop
    mono
instance mono_ippVerify (ipp : InnerProductProof Ref) (pp : BP.PP Ref) : Mono (InnerProductProof.verify E ipp pp) := by
  unfold InnerProductProof.verify
  exact (mono_computeInstanceSpecificParams _ _ _).bind fun _ => mono_verifyLoop _ _ _ _ _ _ _
instance mono_irChallenge (d : Bytes) (A B V : Ref) : Mono (irChallenge E d A B V) := by unfold irChallenge; mono
theorem mono_iterVerifyLoop (d : Bytes) (vF : Zr) (Δ : List (Ref × Ref × Ref)) : ∀ (n : ℕ) (G : List Ref) (pV : Ref) (fV : Option Ref)
    (xs : List Zr), Mono (iterVerifyLoop E d vF n G pV Δ fV xs) := by
  induction Δ with
  | nil =>
    intro n G pV fV xs
    unfold iterVerifyLoop
    mono
  | cons t Δ ih =>
    intro n G pV fV xs
    unfold iterVerifyLoop
    mono
instance mono_iterativeVerify (pp : BP.PP Ref) (pV : Ref) (Δ : List (Ref × Ref × Ref)) (vF : Zr) : Mono (iterativeVerify E pp pV Δ vF) := by
  unfold iterativeVerify
  mono
  exact mono_iterVerifyLoop _ _ _ _ _ _ _ _
instance mono_getDigest (pp : RPPP Ref) : Mono (getDigest E pp) := by unfold getDigest; mono
instance mono_rangeProofRO1 (pp : RPPP Ref) (V W Q : Ref) : Mono (rangeProofRO1 E pp V W Q) := by unfold rangeProofRO1; mono
instance mono_rangeY (pp : RPPP Ref) (Q R : Ref) (x : Zr) (tag : UInt8) : Mono (rangeY E pp Q R x tag) := by unfold rangeY; mono
instance mono_computeZ (pp : RPPP Ref) (C1 C2 Q R : Ref) (y0 y1 : Bytes) : Mono (computeZ E pp C1 C2 Q R y0 y1) := by unfold computeZ; mono
instance mono_mulVSum (gl : Globals) (g : List Ref) (v : List Zr) : Mono (mulVSum (G1 := G1) (G2 := G2) (GT := GT) gl g v) := by
  unfold mulVSum; mono
instance mono_computeP (gl : Globals) (pp : RPPP Ref) (ρ : Zr) (Q R : Ref) (z : Zr) (y1v : List Zr) (n m : ℕ) (F : List Ref) (d : List Zr)
    (y1 : Zr) : Mono (computeP (G1 := G1) (G2 := G2) (GT := GT) gl pp ρ Q R z y1v n m F d y1) := by
  unfold computeP; mono
instance mono_rangeRdxPP (pp : RPPP Ref) : Mono (rangeRdxPP E pp) := by unfold rangeRdxPP; mono
instance mono_rangeIpaPP (pp : RPPP Ref) (F : List Ref) : Mono (rangeIpaPP E pp F) := by unfold rangeIpaPP; mono
instance mono_verifyRangeState (gl : Globals) (pp : RPPP Ref) (rp : RangeProof Ref) (V : Ref) : Mono (verifyRangeState E gl pp rp V) := by
  unfold verifyRangeState; mono
end BP

namespace Sum
open PoL.Sum
variable [DecidableEq G1]

instance mono_createHVZKChallenge (V : List Ref) (m : ℕ) : Mono (createHVZKChallenge E V m) := by unfold createHVZKChallenge; mono
instance mono_randomOracleCVW (c : Zr) (V W : Ref) : Mono (randomOracleCVW E c V W) := by unfold randomOracleCVW; mono
instance mono_ipaParams (pp : Sum.PP Ref) : Mono (ipaParams E pp) := by unfold ipaParams; mono
instance mono_verifyState (p : Proof Ref) (pp : Sum.PP Ref) (a : Argument Ref) : Mono (verifyState E p pp a) := by unfold verifyState; mono
instance mono_verifyAggregated (gl : Globals) (p : Proof Ref) (pp : Sum.PP Ref) (V : List Ref) : Mono (verifyAggregated E gl p pp V) := by
  unfold verifyAggregated; mono
end Sum

namespace Poe
open PoL.Poe
variable [DecidableEq G1] [DecidableEq GT]

instance mono_callRO (RO : ROFun G1) (gs : List Ref) (is : List ℕ) (d : Bytes) (n : ℕ) :
    Mono (callRO (G2 := G2) (GT := GT) RO gs is d n) := by unfold callRO; mono
instance mono_ipaParams (pp : Poe.PP Ref Ref Ref) : Mono (ipaParams E pp) := by unfold ipaParams; mono
instance mono_eqsVerifyState (gl : Globals) (RO : ROFun G1) (e : Equalities Ref Ref Ref) (p : AggregatedProof Ref) :
    Mono (eqsVerifyState E gl RO e p) := by unfold eqsVerifyState; mono
end Poe

namespace Pol
open PoL.Pol
variable [DecidableEq G1] [DecidableEq GT]

instance mono_totalVerify (gl : Globals) (tp : TotalProof Ref) (pp : PublicParams Ref Ref Ref) (V : Ref) : Mono (totalVerify E gl tp pp V) := by
  unfold totalVerify; mono
instance mono_checkInner (lp : LiabilityProof Ref) (i : ℕ) : Mono (checkInner E lp i) := by unfold checkInner; mono
instance mono_checkLeaf (lp : LiabilityProof Ref) (i : ℕ) : Mono (checkLeaf E lp i) := by unfold checkLeaf; mono
theorem mono_verifyLoop (gl : Globals) (lp : LiabilityProof Ref) (pp : PublicParams Ref Ref Ref) (n rest : ℕ) :
    ∀ (i : ℕ) (err : Bool), Mono (verifyLoop E gl lp pp n i rest err) := by
  induction rest with
  | zero => intro i err; unfold verifyLoop; mono
  | succ rest ih =>
    intro i err
    unfold verifyLoop
    mono
instance mono_verify (gl : Globals) (lp : LiabilityProof Ref) (pp : PublicParams Ref Ref Ref) (id : Str) (V W : Ref)
    (f : Str → Option (List ℕ)) : Mono (verify E gl lp pp id V W f) := by
  unfold verify
  mono
  exact mono_verifyLoop _ _ _ _ _ _ _

end Pol
end PoL.Ptr
