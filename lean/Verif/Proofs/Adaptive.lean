import Mathlib.Algebra.Order.Field.Rat
import Mathlib.Tactic.Linarith
import Mathlib.Tactic.Positivity
import Verif.Spec.Adaptive
import Verif.Proofs.ViewPrivacy

/-! # Tests and adaptive requests (helper lemmas) -/

set_option linter.unusedSectionVars false

namespace PoL
open Spec Pol

/-- If every good output is equally likely, then a set of good outputs is. -/
theorem card_good {R O : Type} {S : R → Prop} {f g : R → Option O} (Good : O → Prop)
    (h : ∀ o, Good o → EquallyLikely S f g o) :
    Nat.card {r : R // S r ∧ ∃ o, Good o ∧ f r = some o} = Nat.card {r : R // S r ∧ ∃ o, Good o ∧ g r = some o} := by
  have key : ∀ f : R → Option O, Nonempty ({r : R // S r ∧ ∃ o, Good o ∧ f r = some o} ≃
      (Σ o : {o // Good o}, {r : R // S r ∧ f r = some o.1})) := by
    intro f
    refine equiv_of_matching (fun a b => a.1 = b.2.1) ?_ ?_ ?_ ?_
    · rintro ⟨r, hr, o, ho, e⟩
      exact ⟨⟨⟨o, ho⟩, ⟨r, hr, e⟩⟩, rfl⟩
    · rintro ⟨⟨o, ho⟩, ⟨r, hr, e⟩⟩
      exact ⟨⟨r, hr, o, ho, e⟩, rfl⟩
    · rintro ⟨r, hr⟩ ⟨⟨o, ho⟩, ⟨r1, hr1, e1⟩⟩ ⟨⟨o', ho'⟩, ⟨r2, hr2, e2⟩⟩ h1 h2
      dsimp only at h1 h2 e1 e2
      subst h1
      subst h2
      obtain rfl : o = o' := by rw [e1] at e2; exact Option.some.inj e2
      rfl
    · rintro ⟨r, hr⟩ ⟨r', hr'⟩ b h1 h2
      exact Subtype.ext (h1.trans h2.symm)
  obtain ⟨e1⟩ := key f
  obtain ⟨e2⟩ := key g
  have e3 : ∀ o : {o // Good o}, Nonempty ({r : R // S r ∧ f r = some o.1} ≃ {r : R // S r ∧ g r = some o.1}) :=
    fun o => (h o.1 o.2).equiv
  exact Nat.card_congr (e1.trans ((Equiv.sigmaCongrRight fun o => (e3 o).some).trans e2.symm))

theorem card_split {R : Type} {S : R → Prop} (fin : Finite {r : R // S r}) (P Q : R → Prop) :
    Nat.card {r : R // S r ∧ P r} = Nat.card {r : R // S r ∧ P r ∧ Q r} + Nat.card {r : R // S r ∧ P r ∧ ¬ Q r} := by
  classical
  have f1 : Finite {r : R // S r ∧ P r ∧ Q r} := finite_fiber fin
  have f2 : Finite {r : R // S r ∧ P r ∧ ¬ Q r} := finite_fiber fin
  rw [← Nat.card_sum]
  refine (equiv_of_matching (fun a b => Sum.elim (fun x => x.1) (fun x => x.1) b = a.1) ?_ ?_ ?_ ?_).elim Nat.card_congr
  · rintro ⟨r, hr, hp⟩
    by_cases hq : Q r
    · exact ⟨.inl ⟨r, hr, hp, hq⟩, rfl⟩
    · exact ⟨.inr ⟨r, hr, hp, hq⟩, rfl⟩
  · rintro (⟨r, hr, hp, hq⟩ | ⟨r, hr, hp, hq⟩)
    · exact ⟨⟨r, hr, hp⟩, rfl⟩
    · exact ⟨⟨r, hr, hp⟩, rfl⟩
  · rintro ⟨r, hr⟩ (⟨a, ha, ha2, ha3⟩ | ⟨a, ha, ha2, ha3⟩) (⟨b, hb, hb2, hb3⟩ | ⟨b, hb, hb2, hb3⟩) h1 h2 <;>
      simp only [Sum.elim_inl, Sum.elim_inr] at h1 h2 <;> subst h1 <;> subst h2
    · rfl
    · exact absurd ha3 hb3
    · exact absurd hb3 ha3
    · rfl
  · rintro ⟨r, hr⟩ ⟨r', hr'⟩ b h1 h2
    exact Subtype.ext (h1.symm.trans h2)

theorem card_le {R : Type} {S : R → Prop} (fin : Finite {r : R // S r}) {P Q : R → Prop} (h : ∀ r, S r → P r → Q r) :
    Nat.card {r : R // S r ∧ P r} ≤ Nat.card {r : R // S r ∧ Q r} := by
  have : Finite {r : R // S r ∧ Q r} := finite_fiber fin
  exact Nat.card_le_card_of_injective (fun r => (⟨r.1, r.2.1, h _ r.2.1 r.2.2⟩ : {r : R // S r ∧ Q r}))
    fun a b h => Subtype.ext (by simpa using h)

/-- A test does not tell `f` from `g` more often than there are outputs that are not good, and these are as many for `f` as
for `g`. -/
theorem test_close {R O : Type} {S : R → Prop} (fin : Finite {r : R // S r}) {f g : R → Option O} (Good : Option O → Prop)
    (hG : ¬ Good none) (h : ∀ o, Good (some o) → EquallyLikely S f g o) :
    chance S f (fun x => ¬ Good x) = chance S g (fun x => ¬ Good x) ∧
    ∀ D : Option O → Prop, |chance S f D - chance S g D| ≤ chance S f (fun x => ¬ Good x) := by
  have good : ∀ D : Option O → Prop, Nat.card {r : R // S r ∧ D (f r) ∧ Good (f r)} = Nat.card {r : R // S r ∧ D (g r) ∧ Good (g r)} := by
    intro D
    have e : ∀ f : R → Option O, {r : R // S r ∧ D (f r) ∧ Good (f r)} = {r : R // S r ∧ ∃ o, (D (some o) ∧ Good (some o)) ∧ f r = some o} := by
      intro f
      congr 1
      funext r
      apply propext
      constructor
      · rintro ⟨h1, h2, h3⟩
        refine ⟨h1, ?_⟩
        cases hx : f r with
        | none => rw [hx] at h3; exact absurd h3 hG
        | some o => rw [hx] at h2 h3; exact ⟨o, ⟨h2, h3⟩, rfl⟩
      · rintro ⟨h1, o, ⟨h2, h3⟩, h4⟩
        rw [h4]
        exact ⟨h1, h2, h3⟩
    rw [e f, e g]
    exact card_good _ fun o ho => h o ho.2
  have bad : Nat.card {r : R // S r ∧ ¬ Good (f r)} = Nat.card {r : R // S r ∧ ¬ Good (g r)} := by
    have h1 := card_split fin (fun _ => True) fun r => Good (f r)
    have h2 := card_split fin (fun _ => True) fun r => Good (g r)
    have h3 := good fun _ => True
    simp only [true_and] at h1 h2 h3
    omega
  have e : chance S f (fun x => ¬ Good x) = chance S g (fun x => ¬ Good x) := by
    unfold chance
    rw [bad]
  refine ⟨e, fun D => ?_⟩
  have f1 := card_split fin (fun r => D (f r)) fun r => Good (f r)
  have g1 := card_split fin (fun r => D (g r)) fun r => Good (g r)
  have f2 := card_le fin (P := fun r => D (f r) ∧ ¬ Good (f r)) (Q := fun r => ¬ Good (f r)) fun _ _ h => h.2
  have g2 := card_le fin (P := fun r => D (g r) ∧ ¬ Good (g r)) (Q := fun r => ¬ Good (g r)) fun _ _ h => h.2
  have gd := good D
  rw [← bad] at g2
  unfold chance
  rw [← sub_div, abs_div, abs_of_nonneg (a := (Nat.card {r : R // S r} : ℚ)) (by positivity)]
  apply div_le_div_of_nonneg_right _ (by positivity)
  rw [f1, g1, gd]
  push_cast
  have f2' : (Nat.card {r : R // S r ∧ D (f r) ∧ ¬ Good (f r)} : ℚ) ≤ Nat.card {r : R // S r ∧ ¬ Good (f r)} := by exact_mod_cast f2
  have g2' : (Nat.card {r : R // S r ∧ D (g r) ∧ ¬ Good (g r)} : ℚ) ≤ Nat.card {r : R // S r ∧ ¬ Good (f r)} := by exact_mod_cast g2
  have p1 : (0 : ℚ) ≤ Nat.card {r : R // S r ∧ D (f r) ∧ ¬ Good (f r)} := by positivity
  have p2 : (0 : ℚ) ≤ Nat.card {r : R // S r ∧ D (g r) ∧ ¬ Good (g r)} := by positivity
  rw [abs_le]
  constructor <;> linarith

theorem converse_length {A : Type} (answer : ℕ → Str → A) (ask : List A → Str) (k : ℕ) : (converse answer ask k).length = k := by
  induction k with
  | zero => rfl
  | succ k ih => rw [converse, List.length_append, ih]; rfl

theorem converse_iff {A : Type} (answer : ℕ → Str → A) (ask : List A → Str) (k : ℕ) (l : List A) :
    converse answer ask k = l ↔ l.length = k ∧ ∀ i < k, l[i]? = some (answer i (ask (l.take i))) := by
  induction k generalizing l with
  | zero =>
    rw [converse]
    constructor
    · rintro rfl
      exact ⟨rfl, fun i hi => by omega⟩
    · rintro ⟨h, -⟩
      exact (List.length_eq_zero_iff.1 h).symm
  | succ k ih =>
    rw [converse]
    constructor
    · intro h
      have hl := converse_length answer ask k
      obtain ⟨-, h2⟩ := (ih _).1 rfl
      subst h
      refine ⟨by simp [hl], fun i hi => ?_⟩
      rcases Nat.lt_succ_iff_lt_or_eq.1 hi with hi | rfl
      · rw [List.getElem?_append_left (by omega), h2 i hi, List.take_append_of_le_length (by omega)]
      · rw [List.getElem?_append_right (by omega), hl, List.take_append_of_le_length (by omega), List.take_of_length_le (by omega)]
        simp
    · rintro ⟨h1, h2⟩
      have h3 : converse answer ask k = l.take k := by
        rw [ih]
        refine ⟨by simp [h1], fun i hi => ?_⟩
        rw [List.getElem?_take_of_lt hi, h2 i (by omega), List.take_take, min_eq_left hi.le]
      rw [h3]
      have := h2 k (by omega)
      have h4 : l = l.take k ++ l.drop k := (List.take_append_drop k l).symm
      conv_rhs => rw [h4]
      congr 1
      have hk : k < l.length := by omega
      rw [List.drop_eq_getElem_cons hk, List.drop_of_length_le (by omega)]
      rw [List.getElem?_eq_getElem hk] at this
      rw [Option.some.inj this]

theorem equallyLikely_of_never {R O : Type} {S : R → Prop} (fin : Finite {r : R // S r}) {f g : R → Option O} {o : O}
    (hf : ∀ r, S r → f r ≠ some o) (hg : ∀ r, S r → g r ≠ some o) : EquallyLikely S f g o := by
  refine ⟨fin, ?_⟩
  have e : ∀ f : R → Option O, (∀ r, S r → f r ≠ some o) → Nat.card {r : R // S r ∧ f r = some o} = 0 := fun f hf =>
    Nat.card_eq_zero.2 (.inl ⟨fun r => hf r.1 r.2.1 r.2.2⟩)
  rw [e f hf, e g hg]

theorem finite_view (t0 n k F L : ℕ) :
    Finite {r : (ℕ → Zr) × (Fin k → Pol.ProveRand) // Blinding t0 n r.1 ∧ ∀ i, Drawn F L (r.2 i)} := by
  have := finite_blinding t0 n
  have := finite_drawn F L
  refine Finite.of_injective (β := {ρ : ℕ → Zr // Blinding t0 n ρ} × (Fin k → {rnd : Pol.ProveRand // Drawn F L rnd}))
    (fun r => (⟨r.1.1, r.2.1⟩, fun i => ⟨r.1.2 i, r.2.2 i⟩)) ?_
  rintro ⟨⟨a, b⟩, h1, h2⟩ ⟨⟨a', b'⟩, h1', h2'⟩ e
  simp only [Prod.mk.injEq, Subtype.mk.injEq, funext_iff] at e
  obtain rfl : a = a' := funext e.1
  obtain rfl : b = b' := funext e.2
  rfl

open Pol

variable {G1 G2 GT : Type} [AddCommGroup G1] [Module Zr G1] [AddCommGroup G2] [Module Zr G2]
  [AddCommGroup GT] [Module Zr GT] [DecidableEq G1] [DecidableEq GT]

theorem observeAsking_length {E : Curve G1 G2 GT} {env : Verkle.Env} {ls : LiabilitySet G1 G2 GT} {hist : List (Str × ℤ)} {k : ℕ}
    {ask : Asker G1} {withTotal : Bool} {r : (ℕ → Zr) × (Fin k → ProveRand)} {t : Transcript G1}
    (h : observeAsking E env ls hist k ask withTotal r = some t) : t.answers.length = k := by
  unfold observeAsking at h
  simp only [Option.bind_eq_some_iff] at h
  obtain ⟨ls1, -, rl, -, total, -, h⟩ := h
  cases h
  exact converse_length _ _ _

theorem observeAsking_iff (E : Curve G1 G2 GT) (env : Verkle.Env) (ls : LiabilitySet G1 G2 GT) (hist : List (Str × ℤ)) {k : ℕ}
    (ask : Asker G1) (withTotal : Bool) (r : (ℕ → Zr) × (Fin k → ProveRand)) (t : Transcript G1) (hl : t.answers.length = k) :
    observeAsking E env ls hist k ask withTotal r = some t ↔
    observe E env ls hist (fun i : Fin k => ask t.root t.total (t.answers.take i)) withTotal r
      = some ⟨t.root, t.total, fun i => t.answers.getD i none⟩ := by
  unfold observeAsking observe
  simp only [Option.bind_eq_some_iff]
  refine exists_congr fun ls1 => and_congr_right fun _ => exists_congr fun rl => and_congr_right fun _ =>
    exists_congr fun total => and_congr_right fun _ => ?_
  obtain ⟨root, tot, ans⟩ := t
  dsimp only at hl ⊢
  rw [Option.some.injEq, Option.some.injEq, Transcript.mk.injEq, View.mk.injEq]
  refine and_congr_right fun e1 => and_congr_right fun e2 => ?_
  subst e1
  subst e2
  rw [converse_iff, funext_iff]
  constructor
  · rintro ⟨-, h2⟩ i
    have := h2 i i.2
    rw [dif_pos i.2] at this
    rw [List.getD, this]
    rfl
  · intro h
    refine ⟨hl, fun i hi => ?_⟩
    have := h ⟨i, hi⟩
    dsimp only at this
    rw [dif_pos hi, this, List.getElem?_eq_getElem (by omega), List.getD, List.getElem?_eq_getElem (by omega)]
    rfl

end PoL
