import Verif.Spec.NilScalars
import Verif.Proofs.Vec

/-!
# Checking proofs with nil scalars and parts
-/

set_option linter.unusedSectionVars false

namespace PoL.Nil

open Spec BP

variable {G1 G2 GT : Type} [AddCommGroup G1] [Module Zr G1] [AddCommGroup G2] [Module Zr G2]
  [AddCommGroup GT] [Module Zr GT] [DecidableEq G1] [DecidableEq GT]

variable {α β γ δ : Type}

/-- The first computation gives what the second gives, or panics; unless `k` fails, it gives just what the second gives. -/
def Upto (k : Prop) (R : α → β → Prop) (o : Option α) (o' : Option β) : Prop := (o = none ∧ ¬k) ∨ Option.Rel R o o'

theorem Upto.bind {k : Prop} {R : α → β → Prop} {S : γ → δ → Prop} {o : Option α} {o' : Option β} {f : α → Option γ} {g : β → Option δ}
    (h : Upto k R o o') (hf : ∀ a b, R a b → Upto k S (f a) (g b)) : Upto k S (o >>= f) (o' >>= g) := by
  rcases h with ⟨rfl, h⟩ | h
  · exact .inl ⟨rfl, h⟩
  · cases h with
    | some h => exact hf _ _ h
    | none => exact .inr .none

theorem Upto.same {k : Prop} {S : γ → δ → Prop} (o : Option α) {f : α → Option γ} {g : α → Option δ} (hf : ∀ a, Upto k S (f a) (g a)) :
    Upto k S (o >>= f) (o >>= g) := by
  cases o with
  | none => exact .inr .none
  | some a => exact hf a

theorem Upto.scalar {k : Prop} {S : γ → δ → Prop} {o : Option α} {x : α} (h : OrNil o x) (hk : k → o ≠ none) {f : α → Option γ}
    {o' : Option δ} (hf : Upto k S (f x) o') : Upto k S (o >>= f) o' := by
  cases o with
  | none => exact .inl ⟨rfl, fun h => hk h rfl⟩
  | some y => rw [← h y rfl] at hf; exact hf

theorem Upto.part {k : Prop} {S : γ → δ → Prop} {P : α → Prop} {o : Option α} (hk : k → ∃ m, o = some m ∧ P m) {f : α → Option γ}
    {o' : Option δ} (hf : ∀ m, o = some m → Upto k S (f m) o') : Upto k S (o >>= f) o' := by
  cases o with
  | none => exact .inl ⟨rfl, fun h => by obtain ⟨m, e, -⟩ := hk h; exact nomatch e⟩
  | some y => exact hf y rfl

theorem Upto.pure {k : Prop} {R : α → β → Prop} {a : α} {b : β} (h : R a b) : Upto k R (some a) (some b) := .inr (.some h)

theorem Upto.ite {k p : Prop} [Decidable p] {R : α → β → Prop} {a b : Option α} {a' b' : Option β} (h : p → Upto k R a a')
    (h' : ¬p → Upto k R b b') : Upto k R (if p then a else b) (if p then a' else b') := by
  by_cases hp : p
  · rw [if_pos hp, if_pos hp]; exact h hp
  · rw [if_neg hp, if_neg hp]; exact h' hp

theorem Upto.rfl {k : Prop} (o : Option α) : Upto k (· = ·) o o := by
  cases o with
  | none => exact .inr .none
  | some a => exact .inr (.some _root_.rfl)

theorem Upto.mono {k k' : Prop} {R : α → β → Prop} {o : Option α} {o' : Option β} (h : Upto k R o o') (hk : k' → k) : Upto k' R o o' := by
  rcases h with ⟨e, h⟩ | h
  · exact .inl ⟨e, fun h' => h (hk h')⟩
  · exact .inr h

theorem Upto.eq_some {k : Prop} {o o' : Option α} (h : Upto k (· = ·) o o') {a : α} (e : o = some a) : o' = some a := by
  rcases h with ⟨e', -⟩ | h
  · rw [e] at e'; exact nomatch e'
  · subst e
    cases h with
    | some h => rw [h]

theorem Upto.eq {k : Prop} {o o' : Option α} (h : Upto k (· = ·) o o') (hk : k) : o = o' := by
  rcases h with ⟨-, h⟩ | h
  · exact absurd hk h
  · cases h with
    | some h => rw [h]
    | none => exact _root_.rfl

theorem ippLoop_some (E : Curve G1 G2 GT) (pp : BP.PP G1) (a b : Zr) (P : G1) (g h LRs : List G1) :
    ippLoop E pp P g h LRs (some a) (some b) = BP.verifyLoop E pp P g h LRs a b := by
  fun_induction BP.verifyLoop E pp P g h LRs a b with
  | case1 P g h LRs hg => rw [ippLoop.eq_def, if_pos hg]; rfl
  | case2 P g h hg L R t e => rw [ippLoop.eq_def, if_neg hg]; dsimp only; rw [e]
  | case3 P g h hg L R t np e ih => rw [ippLoop.eq_def, if_neg hg]; dsimp only; rw [e]; exact ih
  | case4 LRs P g h hg hne =>
    rw [ippLoop.eq_def, if_neg hg]
    match LRs, hne with
    | [], _ => rfl
    | [_], _ => rfl
    | L :: R :: t, hne => exact absurd rfl (hne L R t)

theorem ippLoop_none (E : Curve G1 G2 GT) (pp : BP.PP G1) (a b : Option Zr) (hab : a = none ∨ b = none) (P : G1) (g h LRs : List G1) :
    ippLoop E pp P g h LRs a b = none := by
  fun_induction ippLoop E pp P g h LRs a b with
  | case1 P g h LRs hg =>
    rcases hab with rfl | rfl
    · rfl
    · cases a <;> rfl
  | case2 => rfl
  | case3 P g h hg L R t np e ih => exact ih
  | case4 => rfl

theorem ippLoop_eq (E : Curve G1 G2 GT) (pp : BP.PP G1) (a b : Option Zr) (LRs : List G1) (P : G1) (g h : List G1) :
    ippLoop E pp P g h LRs a b = a.bind fun a => b.bind fun b => BP.verifyLoop E pp P g h LRs a b := by
  cases a with
  | none => exact ippLoop_none E pp _ _ (.inl rfl) _ _ _ _
  | some a =>
    cases b with
    | none => exact ippLoop_none E pp _ _ (.inr rfl) _ _ _ _
    | some b => exact ippLoop_some E pp a b _ _ _ _

theorem ipp_upto (E : Curve G1 G2 GT) {k : Prop} (n : Ipp G1) (p : InnerProductProof G1) (hf : IppFilled n p) (hk : k → IppWhole n)
    (pp : BP.PP G1) (P : G1) (C : Option Zr) (c : Zr) (hC : OrNil C c) (hC' : k → C ≠ none) :
    Upto k (· = ·) (n.verify E pp P C) (InnerProductProof.verify E { p with C := c, P := P } pp) := by
  unfold Ipp.verify InnerProductProof.verify
  refine Upto.scalar hC hC' ?_
  refine Upto.same _ fun x => ?_
  obtain ⟨p', P'⟩ := x
  dsimp only
  rw [ippLoop_eq, hf.LRs]
  exact Upto.scalar (f := fun a => n.b.bind fun b => _) hf.a (fun h => (hk h).a)
    (Upto.scalar (f := fun b => BP.verifyLoop E _ _ _ _ _ _ b) hf.b (fun h => (hk h).b) (Upto.rfl _))

theorem ipp_whole {E : Curve G1 G2 GT} {n : Ipp G1} {pp : BP.PP G1} {P : G1} {C : Option Zr} {r : Bool} (h : n.verify E pp P C = some r) :
    C ≠ none ∧ IppWhole n := by
  unfold Ipp.verify at h
  obtain ⟨c, hc, h⟩ := obind_elim h
  obtain ⟨⟨p', P'⟩, -, h⟩ := obind_elim h
  dsimp only at h
  rw [ippLoop_eq] at h
  obtain ⟨a, ha, h⟩ := Option.bind_eq_some_iff.1 h
  obtain ⟨b, hb, h⟩ := Option.bind_eq_some_iff.1 h
  exact ⟨by rw [hc]; nofun, ⟨by rw [ha]; nofun, by rw [hb]; nofun⟩⟩

theorem iterLoop_upto (E : Curve G1 G2 GT) {k : Prop} (digest : Bytes) (u : Option Zr) (v : Zr) (hu : OrNil u v) (hk : k → u ≠ none) :
    ∀ (n : ℕ) (G : List G1) (prevV : G1) (Δ : List (G1 × G1 × G1)) (finalV : Option G1) (xs : List Zr),
    Upto k (· = ·) (iterLoop E digest u n G prevV Δ finalV xs) (iterVerifyLoop E digest v n G prevV Δ finalV xs) := by
  intro n
  induction n using Nat.strong_induction_on with
  | _ n ih =>
    intro G prevV Δ finalV xs
    rw [iterLoop.eq_def, iterVerifyLoop.eq_def]
    by_cases hn : n = 0
    · rw [dif_pos hn, dif_pos hn]
      refine Upto.same _ fun g => ?_
      exact Upto.scalar hu hk (Upto.rfl _)
    · rw [dif_neg hn, dif_neg hn]
      match Δ with
      | [] => exact Upto.rfl _
      | (A, B, V) :: Δ' =>
        dsimp only
        refine Upto.same _ fun x => ?_
        refine Upto.ite (fun _ => Upto.rfl _) fun _ => ?_
        refine Upto.same _ fun x => ?_
        refine Upto.same _ fun x => ?_
        refine Upto.same _ fun x => ?_
        exact ih _ (by omega) _ _ _ _ _

theorem iterLoop_whole {E : Curve G1 G2 GT} {digest : Bytes} {u : Option Zr} :
    ∀ (n : ℕ) (G : List G1) (prevV : G1) (Δ : List (G1 × G1 × G1)) (finalV : Option G1) (xs : List Zr) {r : List Zr × Zr},
    iterLoop E digest u n G prevV Δ finalV xs = some (some r) → u ≠ none := by
  intro n
  induction n using Nat.strong_induction_on with
  | _ n ih =>
    intro G prevV Δ finalV xs r h
    rw [iterLoop.eq_def] at h
    by_cases hn : n = 0
    · rw [dif_pos hn] at h
      obtain ⟨g, -, h⟩ := obind_elim h
      obtain ⟨v, hv, h⟩ := obind_elim h
      rw [hv]; nofun
    · rw [dif_neg hn] at h
      match Δ, h with
      | (A, B, V) :: Δ', h =>
        dsimp only at h
        obtain ⟨x, -, h⟩ := obind_elim h
        split_ifs at h
        · exact nomatch (Option.some.inj h)
        · obtain ⟨x1, -, h⟩ := obind_elim h
          obtain ⟨x2, -, h⟩ := obind_elim h
          obtain ⟨x3, -, h⟩ := obind_elim h
          exact ih _ (by omega) _ _ _ _ _ h

theorem iterativeVerify_upto (E : Curve G1 G2 GT) {k : Prop} (pp : BP.PP G1) (prevV : G1) (Δ : List (G1 × G1 × G1)) (u : Option Zr) (v : Zr)
    (hu : OrNil u v) (hk : k → u ≠ none) :
    Upto k (· = ·) (Nil.iterativeVerify E pp prevV Δ u) (BP.iterativeVerify E pp prevV Δ v) := by
  unfold Nil.iterativeVerify BP.iterativeVerify
  refine Upto.same _ fun x => ?_
  exact Upto.ite (fun _ => Upto.rfl _) fun _ => iterLoop_upto E _ u v hu hk _ _ _ _ _ _

theorem range_upto (E : Curve G1 G2 GT) {k : Prop} (pp : RPPP G1) (n : Range G1) (p : RangeProof G1) (V : G1) (hf : RangeFilled n p)
    (hk : k → RangeWhole n) :
    Upto k (fun a b => a = b.1) (Nil.verifyRange E pp n V) (BP.verifyRangeState E pp p V) := by
  unfold Nil.verifyRange BP.verifyRangeState
  rw [hf.W, hf.Q, hf.R, hf.C1, hf.C2, hf.Δ]
  refine Upto.same _ fun x => ?_
  refine Upto.scalar hf.γ (fun h => (hk h).γ) ?_
  refine Upto.same _ fun ppRdx => ?_
  refine Upto.bind (iterativeVerify_upto E _ _ _ _ _ hf.u fun h => (hk h).u) ?_
  rintro r _ rfl
  match r with
  | none => exact Upto.pure rfl
  | some (xs, u) =>
    dsimp only
    refine Upto.same _ fun f => ?_
    refine Upto.same _ fun d => ?_
    refine Upto.same _ fun y0 => ?_
    refine Upto.same _ fun y1 => ?_
    refine Upto.same _ fun z => ?_
    refine Upto.same _ fun Fprime => ?_
    refine Upto.same _ fun ipaPP => ?_
    refine Upto.part (fun h => (hk h).ipp) fun m hm => ?_
    refine Upto.scalar hf.ρ (fun h => (hk h).ρ) ?_
    refine Upto.same _ fun P => ?_
    refine Upto.bind (ipp_upto E m p.ipp (hf.ipp m hm) (fun h => ?_) _ _ _ _ hf.c fun h => (hk h).c) ?_
    · obtain ⟨m', e, hm'⟩ := (hk h).ipp
      obtain rfl := Option.some.inj (hm.symm.trans e)
      exact hm'
    rintro ok _ rfl
    refine Upto.ite (fun _ => Upto.pure rfl) fun _ => ?_
    refine Upto.same _ fun β1 => ?_
    refine Upto.same _ fun β2 => ?_
    refine Upto.same _ fun sl => ?_
    refine Upto.same _ fun β3 => ?_
    refine Upto.scalar hf.c (fun h => (hk h).c) ?_
    refine Upto.scalar hf.τ (fun h => (hk h).τ) ?_
    exact Upto.pure rfl

theorem upto_map {k : Prop} {o : Option α} {o' : Option (α × β)} (h : Upto k (fun a b => a = b.1) o o') : Upto k (· = ·) o (o'.map Prod.fst) := by
  rcases h with h | h
  · exact .inl h
  · cases h with
    | some h => exact .inr (.some h)
    | none => exact .inr .none

theorem verifyRange_upto (E : Curve G1 G2 GT) {k : Prop} (pp : RPPP G1) (n : Range G1) (p : RangeProof G1) (V : G1) (hf : RangeFilled n p)
    (hk : k → RangeWhole n) : Upto k (· = ·) (Nil.verifyRange E pp n V) (BP.verifyRange E pp p V) :=
  upto_map (range_upto E pp n p V hf hk)

theorem range_whole {E : Curve G1 G2 GT} {pp : RPPP G1} {n : Range G1} {V : G1} (h : Nil.verifyRange E pp n V = some true) :
    RangeWhole n := by
  unfold Nil.verifyRange at h
  obtain ⟨x, -, h⟩ := obind_elim h
  obtain ⟨γ, hγ, h⟩ := obind_elim h
  obtain ⟨ppRdx, -, h⟩ := obind_elim h
  obtain ⟨r, hr, h⟩ := obind_elim h
  match r, hr, h with
  | some (xs, u), hr, h =>
    dsimp only at h
    obtain ⟨f, -, h⟩ := obind_elim h
    obtain ⟨d, -, h⟩ := obind_elim h
    obtain ⟨y0, -, h⟩ := obind_elim h
    obtain ⟨y1, -, h⟩ := obind_elim h
    obtain ⟨z, -, h⟩ := obind_elim h
    obtain ⟨Fprime, -, h⟩ := obind_elim h
    obtain ⟨ipaPP, -, h⟩ := obind_elim h
    obtain ⟨m, hm, h⟩ := obind_elim h
    obtain ⟨ρ, hρ, h⟩ := obind_elim h
    obtain ⟨P, -, h⟩ := obind_elim h
    obtain ⟨ok, hok, h⟩ := obind_elim h
    have hi := ipp_whole hok
    split_ifs at h
    · exact nomatch (Option.some.inj h)
    obtain ⟨β1, -, h⟩ := obind_elim h
    obtain ⟨β2, -, h⟩ := obind_elim h
    obtain ⟨sl, -, h⟩ := obind_elim h
    obtain ⟨β3, -, h⟩ := obind_elim h
    obtain ⟨c, hc, h⟩ := obind_elim h
    obtain ⟨τ, hτ, h⟩ := obind_elim h
    unfold Nil.iterativeVerify at hr
    obtain ⟨pw, -, hr⟩ := obind_elim hr
    split_ifs at hr
    exact ⟨iterLoop_whole _ _ _ _ _ _ hr, by rw [hγ]; nofun, ⟨m, hm, hi.2⟩, hi.1, by rw [hτ]; nofun, by rw [hρ]; nofun⟩

theorem sum_upto (E : Curve G1 G2 GT) {k : Prop} (pp : Sum.PP G1) (n : SumProof G1) (p : Sum.Proof G1) (V : List G1) (hf : SumFilled n p)
    (hk : k → SumWhole n) : Upto k (· = ·) (n.verifyAggregated E pp V) (p.verifyAggregated E pp V) := by
  unfold SumProof.verifyAggregated Sum.Proof.verifyAggregated
  refine Upto.same _ fun t => ?_
  refine Upto.same _ fun tV => ?_
  refine Upto.same _ fun VA => ?_
  unfold Sum.Proof.verify Sum.Proof.verifyState
  apply upto_map
  refine Upto.scalar hf.c (fun h => (hk h).c) ?_
  rw [hf.W]
  refine Upto.same _ fun x => ?_
  refine Upto.scalar hf.ρ (fun h => (hk h).ρ) ?_
  refine Upto.same _ fun ipaPP => ?_
  refine Upto.part (fun h => (hk h).π) fun m hm => ?_
  rw [← bind_pure (m.verify E _ _ _)]
  refine Upto.bind (ipp_upto E m p.π (hf.π m hm) (fun h => ?_) _ _ _ (p.c * x) (fun y hy => (Option.some.inj hy).symm) fun _ => nofun) ?_
  · obtain ⟨m', e, hm'⟩ := (hk h).π
    obtain rfl := Option.some.inj (hm.symm.trans e)
    exact hm'
  rintro ok _ rfl
  exact Upto.pure rfl

theorem sum_whole {E : Curve G1 G2 GT} {pp : Sum.PP G1} {n : SumProof G1} {V : List G1} {r : Bool} (h : n.verifyAggregated E pp V = some r) :
    SumWhole n := by
  unfold SumProof.verifyAggregated at h
  obtain ⟨t, -, h⟩ := obind_elim h
  obtain ⟨tV, -, h⟩ := obind_elim h
  obtain ⟨VA, -, h⟩ := obind_elim h
  obtain ⟨c, hc, h⟩ := obind_elim h
  obtain ⟨x, -, h⟩ := obind_elim h
  obtain ⟨ρ, hρ, h⟩ := obind_elim h
  obtain ⟨ipaPP, -, h⟩ := obind_elim h
  obtain ⟨m, hm, h⟩ := obind_elim h
  exact ⟨by rw [hc]; nofun, by rw [hρ]; nofun, m, hm, (ipp_whole h).2⟩

theorem agg_upto (E : Curve G1 G2 GT) {k : Prop} (e : Poe.Equalities G1 G2 GT) (n : Agg G1) (p : Poe.AggregatedProof G1) (hf : AggFilled n p)
    (hk : k → AggWhole n) : Upto k (· = ·) (n.verify E e) (e.verify E p) := by
  unfold Agg.verify Poe.Equalities.verify Poe.Equalities.verifyState
  rw [hf.U, hf.V, hf.Ω, hf.Waggr, hf.Vaggr]
  apply upto_map
  refine Upto.same _ fun _ => ?_
  refine Upto.same _ fun x => ?_
  refine Upto.same _ fun ts => ?_
  refine Upto.same _ fun gV => ?_
  refine Upto.same _ fun gW => ?_
  refine Upto.same _ fun _ => ?_
  refine Upto.same _ fun _ => ?_
  refine Upto.same _ fun _ => ?_
  refine Upto.same _ fun num1 => ?_
  refine Upto.same _ fun _ => ?_
  refine Upto.same _ fun _ => ?_
  refine Upto.same _ fun _ => ?_
  refine Upto.same _ fun num2 => ?_
  refine Upto.same _ fun den1 => ?_
  refine Upto.scalar hf.c (fun h => (hk h).c) ?_
  refine Upto.same _ fun _ => ?_
  refine Upto.same _ fun _ => ?_
  refine Upto.same _ fun den2 => ?_
  refine Upto.ite (fun _ => Upto.pure rfl) fun _ => ?_
  refine Upto.same _ fun _ => ?_
  refine Upto.same _ fun _ => ?_
  refine Upto.same _ fun b => ?_
  refine Upto.scalar hf.ρ (fun h => (hk h).ρ) ?_
  refine Upto.same _ fun _ => ?_
  refine Upto.same _ fun _ => ?_
  refine Upto.same _ fun bpPP => ?_
  refine Upto.part (fun h => (hk h).IPP) fun m hm => ?_
  rw [← bind_pure (m.verify E _ _ _)]
  refine Upto.bind (ipp_upto E m p.IPP (hf.IPP m hm) (fun h => ?_) _ _ _ p.c (fun y hy => (Option.some.inj hy).symm) fun _ => nofun) ?_
  · obtain ⟨m', e, hm'⟩ := (hk h).IPP
    obtain rfl := Option.some.inj (hm.symm.trans e)
    exact hm'
  rintro ok _ rfl
  exact Upto.pure rfl

theorem agg_whole {E : Curve G1 G2 GT} {e : Poe.Equalities G1 G2 GT} {n : Agg G1} (h : n.verify E e = some true) : AggWhole n := by
  unfold Agg.verify at h
  obtain ⟨_, -, h⟩ := obind_elim h
  obtain ⟨x, -, h⟩ := obind_elim h
  obtain ⟨ts, -, h⟩ := obind_elim h
  obtain ⟨gV, -, h⟩ := obind_elim h
  obtain ⟨gW, -, h⟩ := obind_elim h
  obtain ⟨_, -, h⟩ := obind_elim h
  obtain ⟨_, -, h⟩ := obind_elim h
  obtain ⟨_, -, h⟩ := obind_elim h
  obtain ⟨num1, -, h⟩ := obind_elim h
  obtain ⟨_, -, h⟩ := obind_elim h
  obtain ⟨_, -, h⟩ := obind_elim h
  obtain ⟨_, -, h⟩ := obind_elim h
  obtain ⟨num2, -, h⟩ := obind_elim h
  obtain ⟨den1, -, h⟩ := obind_elim h
  obtain ⟨c, hc, h⟩ := obind_elim h
  obtain ⟨_, -, h⟩ := obind_elim h
  obtain ⟨_, -, h⟩ := obind_elim h
  obtain ⟨den2, -, h⟩ := obind_elim h
  dsimp only at h
  split_ifs at h
  · exact nomatch (Option.some.inj h)
  · obtain ⟨_, -, h⟩ := obind_elim h
    obtain ⟨_, -, h⟩ := obind_elim h
    obtain ⟨b, -, h⟩ := obind_elim h
    obtain ⟨ρ, hρ, h⟩ := obind_elim h
    obtain ⟨_, -, h⟩ := obind_elim h
    obtain ⟨_, -, h⟩ := obind_elim h
    obtain ⟨bpPP, -, h⟩ := obind_elim h
    obtain ⟨m, hm, h⟩ := obind_elim h
    exact ⟨⟨m, hm, (ipp_whole h).2⟩, by rw [hc]; nofun, by rw [hρ]; nofun⟩

theorem forall₂_getElem? {R : α → β → Prop} : ∀ {l : List α} {l' : List β}, List.Forall₂ R l l' → ∀ i : ℕ, Option.Rel R l[i]? l'[i]?
  | _, _, .nil, i => by simp only [List.getElem?_nil]; exact .none
  | _, _, .cons h _, 0 => by simp only [List.getElem?_cons_zero]; exact .some h
  | _, _, .cons _ t, i + 1 => by simp only [List.getElem?_cons_succ]; exact forall₂_getElem? t i

theorem inner_upto (E : Curve G1 G2 GT) {k : Prop} (n : Lp G1) (p : Pol.LiabilityProof G1) (hf : LpFilled n p) (i : ℕ)
    (hk : k → n.digests[i - 1]? ≠ some none) : Upto k (· = ·) (n.checkInner E i) (p.checkCommitmentToInnerVertex E i) := by
  unfold Lp.checkInner Pol.LiabilityProof.checkCommitmentToInnerVertex
  rw [hf.V, hf.W]
  refine Upto.same _ fun _ => ?_
  refine Upto.same _ fun _ => ?_
  refine Upto.same _ fun _ => ?_
  refine Upto.ite (fun _ => Upto.rfl _) fun _ => ?_
  have hd := forall₂_getElem? hf.digests (i - 1)
  cases e : n.digests[i - 1]? with
  | none =>
    rw [e] at hd
    cases e' : p.digests[i - 1]? with
    | none => exact Upto.rfl _
    | some y => rw [e'] at hd; exact nomatch hd
  | some o =>
    rw [e] at hd
    cases e' : p.digests[i - 1]? with
    | none => rw [e'] at hd; exact nomatch hd
    | some y =>
      rw [e'] at hd
      cases hd with
      | some hd => exact Upto.scalar hd (fun h ho => hk h (by rw [e, ho])) (Upto.rfl _)

theorem leaf_upto (E : Curve G1 G2 GT) {k : Prop} (n : Lp G1) (p : Pol.LiabilityProof G1) (hf : LpFilled n p) (i : ℕ)
    (hk : k → n.digests[i - 1]? ≠ some none) : Upto k (· = ·) (n.checkLeaf E i) (p.checkCommitmentToLeafVertex E i) := by
  unfold Lp.checkLeaf Pol.LiabilityProof.checkCommitmentToLeafVertex
  rw [hf.V]
  refine Upto.same _ fun _ => ?_
  refine Upto.same _ fun _ => ?_
  refine Upto.ite (fun _ => Upto.rfl _) fun _ => ?_
  have hd := forall₂_getElem? hf.digests (i - 1)
  cases e : n.digests[i - 1]? with
  | none =>
    rw [e] at hd
    cases e' : p.digests[i - 1]? with
    | none => exact Upto.rfl _
    | some y => rw [e'] at hd; exact nomatch hd
  | some o =>
    rw [e] at hd
    cases e' : p.digests[i - 1]? with
    | none => rw [e'] at hd; exact nomatch hd
    | some y =>
      rw [e'] at hd
      cases hd with
      | some hd => exact Upto.scalar hd (fun h ho => hk h (by rw [e, ho])) (Upto.rfl _)

theorem inner_whole {E : Curve G1 G2 GT} {n : Lp G1} {i : ℕ} {r : Bool} (h : n.checkInner E i = some r) : n.digests[i - 1]? ≠ some none := by
  unfold Lp.checkInner at h
  obtain ⟨_, -, h⟩ := obind_elim h
  obtain ⟨_, -, h⟩ := obind_elim h
  obtain ⟨_, -, h⟩ := obind_elim h
  split_ifs at h
  obtain ⟨d, hd, h⟩ := obind_elim h
  obtain ⟨y, rfl, h⟩ := obind_elim h
  rw [hd]; nofun

theorem leaf_whole {E : Curve G1 G2 GT} {n : Lp G1} {i : ℕ} {r : Bool} (h : n.checkLeaf E i = some r) : n.digests[i - 1]? ≠ some none := by
  unfold Lp.checkLeaf at h
  obtain ⟨_, -, h⟩ := obind_elim h
  obtain ⟨_, -, h⟩ := obind_elim h
  split_ifs at h
  obtain ⟨d, hd, h⟩ := obind_elim h
  obtain ⟨y, rfl, h⟩ := obind_elim h
  rw [hd]; nofun

theorem loop_upto (E : Curve G1 G2 GT) {k : Prop} (n : Lp G1) (p : Pol.LiabilityProof G1) (hf : LpFilled n p) (pp : Pol.PublicParams G1 G2 GT)
    (L : ℕ) (hk : k → LpWhole L n) : ∀ (rest i : ℕ) (err : Bool), i + rest = L →
    Upto k (· = ·) (n.verifyLoop E pp L i rest err) (p.verifyLoop E pp L i rest err)
  | 0, i, err, _ => Upto.rfl _
  | rest + 1, i, err, hi => by
    have ih := fun err => loop_upto E n p hf pp L hk rest (i + 1) err (by omega)
    rw [Lp.verifyLoop, Pol.LiabilityProof.verifyLoop, hf.V]
    refine Upto.ite (fun _ => Upto.rfl _) fun _ => ?_
    have hr := forall₂_getElem? hf.rangeProofs i
    refine Upto.bind (R := fun o q => (n.rangeProofs[i]? = some o) ∧ ∀ m, o = some m → RangeFilled m q) (.inr ?_) fun o q hoq => ?_
    · cases e : n.rangeProofs[i]? with
      | none =>
        rw [e] at hr
        cases e' : p.rangeProofs[i]? with
        | none => exact .none
        | some y => rw [e'] at hr; exact nomatch hr
      | some o =>
        rw [e] at hr
        cases e' : p.rangeProofs[i]? with
        | none => rw [e'] at hr; exact nomatch hr
        | some y =>
          rw [e'] at hr
          cases hr with
          | some hr => exact .some ⟨rfl, hr⟩
    refine Upto.same _ fun v => ?_
    refine Upto.part (P := RangeWhole) (fun h => (hk h).rangeProofs i (by omega) o hoq.1) fun m hm => ?_
    refine Upto.bind (verifyRange_upto E _ m q v (hoq.2 m hm) fun h => ?_) ?_
    · obtain ⟨m', e, hm'⟩ := (hk h).rangeProofs i (by omega) o hoq.1
      obtain rfl := Option.some.inj (hm.symm.trans e)
      exact hm'
    rintro ok _ rfl
    dsimp only
    refine Upto.ite (fun hL => ?_) fun hL => Upto.ite (fun h0 => ?_) fun _ => ih _
    · by_cases h0 : i = 0
      · have e1 : n.checkLeaf E i = none := by
          unfold Lp.checkLeaf
          simp [h0]
        have e2 : p.checkCommitmentToLeafVertex E i = none := by
          unfold Pol.LiabilityProof.checkCommitmentToLeafVertex
          simp [h0]
        rw [e1, e2]
        exact .inr .none
      refine Upto.bind (leaf_upto E n p hf i fun h => (hk h).digests (i - 1) (by omega)) ?_
      rintro b _ rfl
      exact Upto.ite (fun _ => Upto.rfl _) fun _ => ih _
    · refine Upto.bind (inner_upto E n p hf i fun h => (hk h).digests (i - 1) (by omega)) ?_
      rintro b _ rfl
      exact Upto.ite (fun _ => Upto.rfl _) fun _ => ih _

theorem loop_whole {E : Curve G1 G2 GT} {n : Lp G1} {pp : Pol.PublicParams G1 G2 GT} {L : ℕ} : ∀ (rest i : ℕ) (err : Bool), i + rest = L →
    n.verifyLoop E pp L i rest err = some (some false) → err = false ∧
      (∀ j, i ≤ j → j < L → ∀ o, n.rangeProofs[j]? = some o → ∃ m, o = some m ∧ RangeWhole m) ∧
      ∀ j, i ≤ j + 1 → j + 1 < L → n.digests[j]? ≠ some none
  | 0, i, err, hi, h => by
    rw [Lp.verifyLoop, Option.some.injEq, Option.some.injEq] at h
    exact ⟨h, fun j _ _ => by omega, fun j _ _ => by omega⟩
  | rest + 1, i, err, hi, h => by
    have ih := fun (err : Bool) => loop_whole (E := E) (n := n) (pp := pp) (L := L) rest (i + 1) err (by omega)
    rw [Lp.verifyLoop] at h
    split at h
    · exact nomatch h
    obtain ⟨o, ho, h⟩ := obind_elim h
    obtain ⟨v, -, h⟩ := obind_elim h
    obtain ⟨m, hm, h⟩ := obind_elim h
    obtain ⟨ok, hok, h⟩ := obind_elim h
    dsimp only at h
    have key : n.verifyLoop E pp L (i + 1) rest (err || !ok) = some (some false) ∧ (0 < i → n.digests[i - 1]? ≠ some none) := by
      split_ifs at h with h1 h2
      · obtain ⟨b, hb, h⟩ := obind_elim h
        split_ifs at h
        · exact nomatch (Option.some.inj h)
        · exact ⟨h, fun _ => leaf_whole hb⟩
      · obtain ⟨b, hb, h⟩ := obind_elim h
        split_ifs at h
        · exact nomatch (Option.some.inj h)
        · exact ⟨h, fun _ => inner_whole hb⟩
      · exact ⟨h, fun h' => absurd h' h2⟩
    obtain ⟨h, hd⟩ := key
    obtain ⟨he, h1, h2⟩ := ih _ h
    rw [Bool.or_eq_false_iff] at he
    obtain ⟨he, hok'⟩ := he
    have hok' : ok = true := by simpa using hok'
    rw [hok'] at hok
    refine ⟨he, fun j hj hj' o' ho' => ?_, fun j hj hj' => ?_⟩
    · rcases Nat.eq_or_lt_of_le hj with rfl | hlt
      · rw [ho] at ho'
        exact ⟨m, (Option.some.inj ho').symm.trans hm, range_whole hok⟩
      · exact h1 j hlt hj' o' ho'
    · rcases Nat.eq_or_lt_of_le hj with rfl | hlt
      · exact hd (by omega)
      · exact h2 j (by omega) hj'

theorem lp_upto (E : Curve G1 G2 GT) {k : Prop} (n : Lp G1) (p : Pol.LiabilityProof G1) (hf : LpFilled n p) (pp : Pol.PublicParams G1 G2 GT)
    (id : Str) (V W : G1) (id2path : Str → Option (List ℕ)) (hk : k → ∀ path, id2path id = some path → LpWhole path.length n) :
    Upto k (· = ·) (n.verify E pp id V W id2path) (p.verify E pp id V W id2path) := by
  unfold Lp.verify Pol.LiabilityProof.verify
  rw [hf.V, hf.W, hf.pointProof, hf.total, hf.digests.length_eq]
  cases hp : id2path id with
  | none => exact .inr .none
  | some path =>
    replace hk := fun h => hk h path hp
    show Upto k _ (if _ then _ else _) (if _ then _ else _)
    refine Upto.ite (fun _ => Upto.rfl _) fun _ => ?_
    refine Upto.same _ fun v0 => ?_
    refine Upto.ite (fun _ => Upto.rfl _) fun _ => ?_
    refine Upto.same _ fun w0 => ?_
    refine Upto.ite (fun _ => Upto.rfl _) fun _ => ?_
    refine Upto.bind (loop_upto E n p hf pp path.length hk _ _ _ (by omega)) ?_
    rintro r _ rfl
    match r with
    | none => exact Upto.rfl _
    | some err =>
      dsimp only
      refine Upto.scalar hf.pointProofSum (fun h => (hk h).pointProofSum) ?_
      refine Upto.same _ fun ok => ?_
      refine Upto.ite (fun _ => Upto.rfl _) fun _ => ?_
      refine Upto.part (fun h => (hk h).sumArgumentProof) fun m hm => ?_
      refine Upto.bind (sum_upto E _ m _ _ (hf.sumArgumentProof m hm) fun h => ?_) ?_
      · obtain ⟨m', e, hm'⟩ := (hk h).sumArgumentProof
        obtain rfl := Option.some.inj (hm.symm.trans e)
        exact hm'
      rintro ok _ rfl
      refine Upto.ite (fun _ => Upto.rfl _) fun _ => ?_
      refine Upto.same _ fun _ => ?_
      refine Upto.same _ fun _ => ?_
      refine Upto.same _ fun eqs => ?_
      refine Upto.part (fun h => (hk h).equalityProof) fun m hm => ?_
      refine Upto.bind (agg_upto E eqs m _ (hf.equalityProof m hm) fun h => ?_) ?_
      · obtain ⟨m', e, hm'⟩ := (hk h).equalityProof
        obtain rfl := Option.some.inj (hm.symm.trans e)
        exact hm'
      rintro ok _ rfl
      exact Upto.rfl _

theorem lp_whole {E : Curve G1 G2 GT} {n : Lp G1} {pp : Pol.PublicParams G1 G2 GT} {id : Str} {V W : G1} {id2path : Str → Option (List ℕ)}
    {path : List ℕ} (hp : id2path id = some path) (h : n.verify E pp id V W id2path = some true) : LpWhole path.length n := by
  unfold Lp.verify at h
  rw [hp] at h
  replace h := (obind_elim h)
  obtain ⟨path', e, h⟩ := h
  obtain rfl := Option.some.inj e
  split at h
  · exact nomatch (Option.some.inj h)
  obtain ⟨v0, -, h⟩ := obind_elim h
  split at h
  · exact nomatch (Option.some.inj h)
  obtain ⟨w0, -, h⟩ := obind_elim h
  split at h
  · exact nomatch (Option.some.inj h)
  obtain ⟨r, hr, h⟩ := obind_elim h
  match r, hr, h with
  | some err, hr, h =>
    dsimp only at h
    obtain ⟨s, hs, h⟩ := obind_elim h
    obtain ⟨ok, -, h⟩ := obind_elim h
    split at h
    · exact nomatch (Option.some.inj h)
    obtain ⟨sa, hsa, h⟩ := obind_elim h
    obtain ⟨ok, hsa', h⟩ := obind_elim h
    split at h
    · exact nomatch (Option.some.inj h)
    obtain ⟨_, -, h⟩ := obind_elim h
    obtain ⟨_, -, h⟩ := obind_elim h
    obtain ⟨_, -, h⟩ := obind_elim h
    obtain ⟨ep, hep, h⟩ := obind_elim h
    obtain ⟨ok', hep', h⟩ := obind_elim h
    split at h
    · exact nomatch (Option.some.inj h)
    rename_i hok'
    have hok' : ok' = true := by simpa using hok'
    rw [hok'] at hep'
    split at h
    · exact nomatch (Option.some.inj h)
    rename_i herr
    have herr : err = false := by simpa using herr
    rw [herr] at hr
    obtain ⟨-, h1, h2⟩ := loop_whole _ _ _ (by omega) hr
    exact ⟨by rw [hs]; nofun, ⟨sa, hsa, sum_whole hsa'⟩, fun i hi => h2 i (by omega) hi, fun i hi => h1 i (by omega) hi,
      ⟨ep, hep, agg_whole hep'⟩⟩

end PoL.Nil
