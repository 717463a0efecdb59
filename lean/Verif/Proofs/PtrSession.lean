import Verif.Proofs.PtrSet
import Verif.Spec.Session

/-!
# Sessions with pointers, and new cells
-/

set_option linter.unusedSectionVars false

namespace PoL.Ptr

open Spec

variable {C M : Type}

theorem mapM_new {ι : Type} {k : Kind C M} {f : ι → Run C Ref} :
    ∀ {xs : List ι} {ys : List M} {h : Mem C},
      List.Forall₂ (fun x y => ∀ h', Keeps h h' → Wp (f x) h' (some y) fun h'' r z => Own k h' h'' r z) xs ys →
      Wp (xs.mapM f) h (some ys) fun h' rs zs => Keeps h h' ∧ Ats k h' rs zs ∧ NewCells h rs := by
  intro xs
  induction xs with
  | nil =>
    intro ys h hxy
    cases hxy
    exact ⟨Keeps.refl h, .nil, List.nodup_nil, by simp⟩
  | cons x xs ih =>
    intro ys h hxy
    cases hxy with
    | cons e hrest =>
    rw [List.mapM_cons]
    refine Wp.step (e h (Keeps.refl h)) fun h₁ r o₁ => ?_
    refine Wp.step (ih (h := h₁) (hrest.imp fun a b hab h' hk => hab h' (o₁.keeps.trans hk))) fun h₂ rs e₂ => ?_
    · obtain ⟨k₂, a₂, n₂⟩ := e₂
      refine ⟨o₁.keeps.trans k₂, .cons (o₁.at_.mono k₂) a₂, List.nodup_cons.2 ⟨fun hm => ?_, n₂.1⟩, fun s hs => ?_⟩
      · have := n₂.2 r hm
        have := (List.getElem?_eq_some_iff.1 o₁.at_).1
        omega
      · rcases List.mem_cons.1 hs with rfl | hs
        · exact o₁.fresh
        · exact o₁.keeps.length_le.trans (n₂.2 s hs)

end PoL.Ptr

namespace PoL.Ptr.Pol

open Spec

variable {G1 G2 GT : Type} [AddCommGroup G1] [Module Zr G1] [AddCommGroup G2] [Module Zr G2] [AddCommGroup GT] [Module Zr GT]
  [DecidableEq G1] [DecidableEq GT] {E : Curve G1 G2 GT} {h h' : Mem (Cell G1 G2 GT)} {gl : Globals}
  {s : Held Ref Ref Ref} {s' : Held G1 G2 GT}

theorem heldAt_mono (hs : HeldAt h s s') (hk : Keeps h h') : HeldAt h' s s' :=
  ⟨hs.ls.mono hk, hs.pp.mono hk, hs.id2Path, hs.roots.imp fun _ _ e => ⟨e.1.mono hk, e.2.mono hk⟩,
    hs.totals.imp fun _ _ e => e.mono hk, hs.proofs.imp fun _ _ e => e.mono hk⟩

theorem forall₂_append {α β : Type} {R : α → β → Prop} {as cs : List α} {bs ds : List β} (h : List.Forall₂ R as bs)
    (h' : List.Forall₂ R cs ds) : List.Forall₂ R (as ++ cs) (bs ++ ds) := by
  induction h with
  | nil => exact h'
  | cons a _ ih => exact .cons a ih

theorem agrees_call (hg : GlobalsAt E h gl) (env : PoL.Verkle.Env) (hs : HeldAt h s s') (c : ApiCall) :
    Agrees (Spec.Ptr.apiCall E gl env s c) h (Spec.apiCall E env s' c) fun h' a b => HeldAt h' a.1 b.1 ∧ a.2 = b.2 := by
  cases c with
  | set id a =>
    refine Wp.call (agrees_set hg hs.ls env id a) fun h₁ x y k₁ r₁ => ?_
    have := heldAt_mono hs k₁
    exact ⟨k₁, ⟨r₁, this.pp, this.id2Path, this.roots, this.totals, this.proofs⟩, rfl⟩
  | get id =>
    refine Wp.call (agrees_get hs.ls env id) fun h₁ x y k₁ r₁ => ?_
    exact ⟨k₁, heldAt_mono hs k₁, by rw [r₁]⟩
  | root =>
    refine Wp.call (agrees_root hs.ls) fun h₁ x y k₁ r₁ => ?_
    have := heldAt_mono hs k₁
    obtain ⟨x1, x2⟩ := x
    obtain ⟨y1, y2⟩ := y
    obtain ⟨r₁, r₂⟩ := r₁
    cases x1 <;> cases y1 <;> first | exact r₁.elim | skip
    · exact ⟨k₁, ⟨r₂, this.pp, this.id2Path, by simpa using this.roots, this.totals, this.proofs⟩, rfl⟩
    · exact ⟨k₁, ⟨r₂, this.pp, this.id2Path, forall₂_append this.roots (.cons r₁ .nil), this.totals, this.proofs⟩, rfl⟩
  | proveTot =>
    refine Wp.call (agrees_proveTot hg hs.ls) fun h₁ x y k₁ r₁ => ?_
    have := heldAt_mono hs k₁
    exact ⟨k₁, ⟨this.ls, this.pp, this.id2Path, this.roots, forall₂_append this.totals (.cons r₁ .nil), this.proofs⟩, by rw [r₁.sum]⟩
  | proveLiability rnd id =>
    refine Wp.call (agrees_proveLiability hg hs.ls env rnd id) fun h₁ x y k₁ r₁ => ?_
    have := heldAt_mono hs k₁
    cases x <;> cases y <;> first | exact r₁.elim | skip
    · exact ⟨k₁, ⟨this.ls, this.pp, this.id2Path, this.roots, this.totals, by simpa using this.proofs⟩, rfl⟩
    · exact ⟨k₁, ⟨this.ls, this.pp, this.id2Path, this.roots, this.totals, forall₂_append this.proofs (.cons r₁.2 .nil)⟩,
        congrArg (fun a => Seen.amount (some a)) r₁.1⟩
  | verifyTotal i j =>
    refine Wp.lift₂ (forall₂_get hs.totals i) fun t t' ht => Wp.lift₂ (forall₂_get hs.roots j) fun r r' hr => ?_
    refine Wp.call (agrees_totalVerify hg hs.pp ht hr.1) fun h₁ x y k₁ e => ?_
    exact ⟨k₁, heldAt_mono hs k₁, by rw [e]⟩
  | verifyLiability i j id =>
    refine Wp.lift₂ (forall₂_get hs.proofs i) fun p p' hp => Wp.lift₂ (forall₂_get hs.roots j) fun r r' hr => ?_
    have hW : ORel (At kG1 h) r.2 r'.2 := by
      have := hr.2
      cases hx : r.2 <;> cases hy : r'.2 <;> rw [hx, hy] at this <;> first | exact this.elim | exact .inl ⟨rfl, rfl⟩ | exact .inr ⟨_, _, rfl, rfl, this⟩
    rw [hs.id2Path]
    refine Wp.lift₂ hW fun W W' hW => Wp.call (agrees_verify hg hs.pp hp id hr.1 hW _) fun h₁ x y k₁ e => ?_
    exact ⟨k₁, heldAt_mono hs k₁, by rw [e]⟩

theorem agrees_calls (env : PoL.Verkle.Env) : ∀ (cs : List ApiCall) {h : Mem (Cell G1 G2 GT)} {s : Held Ref Ref Ref} {s' : Held G1 G2 GT},
    GlobalsAt E h gl → HeldAt h s s' →
      Agrees (Spec.Ptr.apiCalls E gl env s cs) h (Spec.apiCalls E env s' cs) fun h' a b => HeldAt h' a.1 b.1 ∧ a.2 = b.2 := by
  intro cs
  induction cs with
  | nil => intro h s s' _ hs; exact ⟨Keeps.refl h, hs, rfl⟩
  | cons c cs ih =>
    intro h s s' hg hs
    refine Wp.call (agrees_call hg env hs c) fun h₁ a b k₁ r₁ => Wp.call (ih (hg.mono k₁) r₁.1) fun h₂ x y k₂ r₂ => ?_
    exact ⟨k₁.trans k₂, r₂.1, by rw [r₁.2, r₂.2]⟩

end PoL.Ptr.Pol
