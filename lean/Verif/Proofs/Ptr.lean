import Verif.Spec.Pointers
import Mathlib.Data.List.Forall2
import Mathlib.Data.List.Zip

/-!
# Reasoning about computations with pointers
-/

set_option linter.unusedSectionVars false

namespace PoL.Ptr

open Spec

variable {C M α β γ δ : Type}

/-! ## Memory -/

theorem Keeps.refl (h : Mem C) : Keeps h h := ⟨List.prefix_refl _, [], by simp, by simp⟩

theorem _root_.PoL.Spec.Keeps.length_le {h h' : Mem C} (k : Keeps h h') : h.cells.length ≤ h'.cells.length := k.cells.length_le

theorem _root_.PoL.Spec.Keeps.trans {h h' h'' : Mem C} (k : Keeps h h') (k' : Keeps h' h'') : Keeps h h'' := by
  obtain ⟨l, hl, hl'⟩ := k.written
  obtain ⟨m, hm, hm'⟩ := k'.written
  refine ⟨k.cells.trans k'.cells, l ++ m, by rw [hm, hl, List.append_assoc], fun a ha => ?_⟩
  rcases List.mem_append.1 ha with ha | ha
  · exact hl' a ha
  · exact k.length_le.trans (hm' a ha)

theorem _root_.PoL.Spec.At.mono {k : Kind C M} {h h' : Mem C} {r : Ref} {x : M} (hx : At k h r x) (hk : Keeps h h') : At k h' r x := by
  unfold At at *
  obtain ⟨l, hl⟩ := hk.cells
  have hlt : r.addr < h.cells.length := (List.getElem?_eq_some_iff.1 hx).1
  rw [← hl, List.getElem?_append_left hlt]
  exact hx

theorem _root_.PoL.Spec.Ats.mono {k : Kind C M} {h h' : Mem C} {rs : List Ref} {xs : List M} (hx : Ats k h rs xs) (hk : Keeps h h') :
    Ats k h' rs xs := hx.imp fun _ _ hr => hr.mono hk

theorem _root_.PoL.Spec.Ats.length {k : Kind C M} {h : Mem C} {rs : List Ref} {xs : List M} (hx : Ats k h rs xs) :
    rs.length = xs.length := hx.length_eq

/-- Both panic, or both return something and the results are related. -/
def ORel (R : α → β → Prop) (o : Option α) (o' : Option β) : Prop :=
  (o = none ∧ o' = none) ∨ ∃ a b, o = some a ∧ o' = some b ∧ R a b

theorem mapM_rel {ι : Type} {R : α → β → Prop} {f : ι → Option α} {g : ι → Option β} {l : List ι} (h : ∀ i ∈ l, ORel R (f i) (g i)) :
    ORel (List.Forall₂ R) (l.mapM f) (l.mapM g) := by
  induction l with
  | nil => exact .inr ⟨[], [], rfl, rfl, .nil⟩
  | cons i l ih =>
    rw [List.mapM_cons, List.mapM_cons]
    rcases h i (by simp) with ⟨e, e'⟩ | ⟨a, b, e, e', r⟩
    · rw [e, e']
      exact .inl ⟨rfl, rfl⟩
    · rw [e, e']
      rcases ih fun j hj => h j (by simp [hj]) with ⟨e, e'⟩ | ⟨as, bs, e, e', rs⟩
      · rw [e, e']
        exact .inl ⟨rfl, rfl⟩
      · rw [e, e']
        exact .inr ⟨_, _, rfl, rfl, .cons r rs⟩

theorem _root_.PoL.Spec.Ats.get {k : Kind C M} {h : Mem C} {rs : List Ref} {xs : List M} (hx : Ats k h rs xs) (i : ℕ) :
    ORel (At k h) rs[i]? xs[i]? := by
  unfold ORel
  induction hx generalizing i with
  | nil => simp
  | cons a _ ih =>
    cases i with
    | zero => exact .inr ⟨_, _, rfl, rfl, a⟩
    | succ i => simpa using ih i

theorem _root_.PoL.Spec.Ats.append {k : Kind C M} {h : Mem C} {rs ss : List Ref} {xs ys : List M} (hx : Ats k h rs xs)
    (hy : Ats k h ss ys) : Ats k h (rs ++ ss) (xs ++ ys) := List.rel_append hx hy

theorem _root_.PoL.Spec.Ats.take {k : Kind C M} {h : Mem C} {rs : List Ref} {xs : List M} (hx : Ats k h rs xs) (n : ℕ) :
    Ats k h (rs.take n) (xs.take n) := List.forall₂_take n hx

theorem _root_.PoL.Spec.Ats.drop {k : Kind C M} {h : Mem C} {rs : List Ref} {xs : List M} (hx : Ats k h rs xs) (n : ℕ) :
    Ats k h (rs.drop n) (xs.drop n) := List.forall₂_drop n hx

theorem _root_.PoL.Spec.PPAt.mono {G1 G2 GT : Type} {h h' : Mem (Cell G1 G2 GT)} {p : PoL.PP Ref Ref Ref} {q : PoL.PP G1 G2 GT}
    (hp : PPAt h p q) (hk : Keeps h h') : PPAt h' p q :=
  ⟨hp.digest, hp.N, hp.G1s.mono hk, hp.G2s.mono hk, hp.Gt.mono hk⟩

theorem _root_.PoL.Spec.GlobalsAt.mono {G1 G2 GT : Type} [AddCommGroup G1] [Module Zr G1] [AddCommGroup G2] [Module Zr G2]
    [AddCommGroup GT] [Module Zr GT] {E : Curve G1 G2 GT} {h h' : Mem (Cell G1 G2 GT)} {gl : Globals}
    (hg : GlobalsAt E h gl) (hk : Keeps h h') : GlobalsAt E h' gl := ⟨hg.zeroG1.mono hk, hg.genG1.mono hk, hg.genG2.mono hk, hg.genGt.mono hk⟩

/-- `r` was made after `b`, and points to `x` now. -/
structure Own (k : Kind C M) (b h : Mem C) (r : Ref) (x : M) : Prop where
  keeps : Keeps b h
  fresh : b.cells.length ≤ r.addr
  at_ : At k h r x

theorem Own.call {k : Kind C M} {b h h' : Mem C} {r : Ref} {x : M} (o : Own k b h r x) (hk : Keeps h h') : Own k b h' r x :=
  ⟨o.keeps.trans hk, o.fresh, o.at_.mono hk⟩

/-! ## Computations -/

/-- `m` in `h` panics if and only if `out` does, and otherwise memory and results are as in `Q`. -/
def Wp (m : Run C α) (h : Mem C) (out : Option β) (Q : Mem C → α → β → Prop) : Prop :=
  match m h, out with
  | none, none => True
  | some (a, h'), some b => Q h' a b
  | _, _ => False

theorem agrees_iff {m : Run C α} {h : Mem C} {out : Option β} {R : Mem C → α → β → Prop} :
    Agrees m h out R ↔ Wp m h out fun h' a b => Keeps h h' ∧ R h' a b := Iff.rfl

theorem Wp.imp {m : Run C α} {h : Mem C} {out : Option β} {Q Q' : Mem C → α → β → Prop} (w : Wp m h out Q)
    (hQ : ∀ h' a b, Q h' a b → Q' h' a b) : Wp m h out Q' := by
  unfold Wp at *
  split
  · trivial
  · rename_i e1
    rw [e1] at w
    exact hQ _ _ _ w
  · rename_i x y e1 e2
    revert w
    split <;> simp_all

theorem _root_.PoL.Spec.Agrees.imp {m : Run C α} {h : Mem C} {out : Option β} {R : Mem C → α → β → Prop} {Q : Mem C → α → β → Prop}
    (w : Agrees m h out R) (hQ : ∀ h' a b, Keeps h h' ∧ R h' a b → Q h' a b) : Wp m h out Q := Wp.imp (agrees_iff.1 w) hQ

theorem _root_.PoL.Spec.Agrees.crash {h : Mem C} {R : Mem C → α → β → Prop} : Agrees (crash : Run C α) h none R := trivial

theorem Wp.none_any {m : Run C α} {h : Mem C} {Q Q' : Mem C → α → β → Prop} (w : Wp m h none Q) : Wp m h none Q' := by
  unfold Wp at *
  cases hm : m h with
  | none => trivial
  | some p => rw [hm] at w; exact w.elim

theorem Wp.pure {a : α} {b : β} {h : Mem C} {Q : Mem C → α → β → Prop} (hQ : Q h a b) : Wp (Pure.pure a) h (some b) Q := hQ

theorem Wp.crash {h : Mem C} {Q : Mem C → α → β → Prop} : Wp (crash : Run C α) h none Q := trivial

theorem Wp.bind {m : Run C α} {h : Mem C} {out : Option β} {Q' : Mem C → α → β → Prop} {k : α → Run C γ} {g : β → Option δ}
    {Q : Mem C → γ → δ → Prop} (w : Wp m h out Q') (hk : ∀ h' a b, Q' h' a b → Wp (k a) h' (g b) Q) :
    Wp (m >>= k) h (out >>= g) Q := by
  have e : (m >>= k) h = (m h).bind fun p => k p.1 p.2 := rfl
  unfold Wp at w ⊢
  rw [e]
  cases hm : m h with
  | none =>
    cases out with
    | none => trivial
    | some b => rw [hm] at w; exact w.elim
  | some p =>
    cases out with
    | none => rw [hm] at w; exact w.elim
    | some b =>
      rw [hm] at w
      exact hk _ _ _ w

/-- A step that has no counterpart that may panic. -/
theorem Wp.step {m : Run C α} {h : Mem C} {b : β} {Q' : Mem C → α → β → Prop} {k : α → Run C γ} {out : Option δ}
    {Q : Mem C → γ → δ → Prop} (w : Wp m h (some b) Q') (hk : ∀ h' a, Q' h' a b → Wp (k a) h' out Q) :
    Wp (m >>= k) h out Q := by
  have e : (m >>= k) h = (m h).bind fun p => k p.1 p.2 := rfl
  unfold Wp at w ⊢
  rw [e]
  cases hm : m h with
  | none => rw [hm] at w; exact w.elim
  | some p =>
    rw [hm] at w
    exact hk _ _ w

theorem Wp.map_right {m : Run C α} {h : Mem C} {out : Option β} {f : β → γ} {Q : Mem C → α → γ → Prop}
    (w : Wp m h out fun h' a b => Q h' a (f b)) : Wp m h (out.map f) Q := by
  unfold Wp at *
  cases hm : m h <;> cases out <;> rw [hm] at w <;> exact w

/-- A call that does not use the memory. -/
theorem Wp.lift {o : Option β} {h : Mem C} {k : β → Run C γ} {g : β → Option δ} {Q : Mem C → γ → δ → Prop}
    (hk : ∀ b, o = some b → Wp (k b) h (g b) Q) : Wp (lift o >>= k) h (o >>= g) Q := by
  cases o with
  | none => exact trivial
  | some b => exact hk b rfl

theorem Wp.lift' {o : Option β} {h : Mem C} {Q : Mem C → β → β → Prop} (hQ : ∀ b, o = some b → Q h b b) : Wp (Ptr.lift o) h o Q := by
  cases o with
  | none => exact trivial
  | some b => exact hQ b rfl

/-- As `Wp.lift`, for lists that correspond. -/
theorem Wp.lift₂ {o : Option α} {o' : Option β} {h : Mem C} {k : α → Run C γ} {g : β → Option δ} {Q : Mem C → γ → δ → Prop}
    {R : α → β → Prop} (ho : ORel R o o')
    (hk : ∀ a b, R a b → Wp (k a) h (g b) Q) : Wp (Ptr.lift o >>= k) h (o' >>= g) Q := by
  rcases ho with ⟨rfl, rfl⟩ | ⟨a, b, rfl, rfl, hr⟩
  · exact trivial
  · exact hk a b hr

theorem wp_new (k : Kind C M) (h : Mem C) (x : M) : Wp (new k x) h (some x) fun h' r y => Own k h h' r y := by
  refine ⟨⟨⟨[k.put x], rfl⟩, [], by simp, by simp⟩, le_rfl, ?_⟩
  unfold At
  simp

theorem wp_load {k : Kind C M} {h : Mem C} {r : Ref} {x : M} (hx : At k h r x) :
    Wp (load k r) h (some x) fun h' y z => h' = h ∧ y = x ∧ z = x := by
  unfold Wp load
  unfold At at hx
  simp [hx, k.get_put]

theorem load_eq {k : Kind C M} {h : Mem C} {r : Ref} {x : M} (hx : At k h r x) : load k r h = some (x, h) := by
  unfold load
  unfold At at hx
  simp [hx, k.get_put]

/-- Loading. -/
theorem Wp.load {k : Kind C M} {h : Mem C} {r : Ref} {x : M} (hx : At k h r x) {f : M → Run C γ} {out : Option δ}
    {Q : Mem C → γ → δ → Prop} (hk : Wp (f x) h out Q) : Wp (Ptr.load k r >>= f) h out Q := by
  have e : (Ptr.load k r >>= f) h = f x h := by
    change (Ptr.load k r h).bind (fun p => f p.1 p.2) = _
    rw [load_eq hx]
    rfl
  unfold Wp at hk ⊢
  rw [e]
  exact hk

theorem store_own {k : Kind C M} {b h : Mem C} {r : Ref} {x y : M} (o : Own k b h r x) :
    ∃ h', store k r y h = some ((), h') ∧ Own k b h' r y := by
  have hlt : r.addr < h.cells.length := (List.getElem?_eq_some_iff.1 o.at_).1
  refine ⟨_, by unfold store; rw [if_pos hlt], ⟨?_, ?_⟩, o.fresh, ?_⟩
  · obtain ⟨l, hl⟩ := o.keeps.cells
    refine ⟨l.set (r.addr - b.cells.length) (k.put y), ?_⟩
    dsimp only
    rw [← hl, List.set_append_right _ _ o.fresh]
  · obtain ⟨l, hl, hl'⟩ := o.keeps.written
    refine ⟨l ++ [r.addr], by dsimp only; rw [hl, List.append_assoc], fun a ha => ?_⟩
    rcases List.mem_append.1 ha with ha | ha
    · exact hl' a ha
    · rw [List.mem_singleton.1 ha]
      exact o.fresh
  · unfold At
    simp [hlt]

section steps

variable {k : Kind C M} {b h : Mem C} {r s : Ref} {x y : M} {out : Option δ} {Q : Mem C → γ → δ → Prop}

theorem Wp.new {f : Ref → Run C γ} (hk : ∀ h' r, Own k h h' r x → Wp (f r) h' out Q) : Wp (Ptr.new k x >>= f) h out Q :=
  Wp.step (wp_new k h x) hk

theorem wp_copy (hx : At k h r x) : Wp (copy k r) h (some x) fun h' s y => Own k h h' s y := Wp.load hx (wp_new k h x)

theorem Wp.copy (hx : At k h r x) {f : Ref → Run C γ} (hk : ∀ h' s, Own k h h' s x → Wp (f s) h' out Q) :
    Wp (Ptr.copy k r >>= f) h out Q := Wp.step (wp_copy hx) hk

theorem Wp.store {f : Unit → Run C γ} (o : Own k b h r x) (hk : ∀ h', Own k b h' r y → Wp (f ()) h' out Q) :
    Wp (Ptr.store k r y >>= f) h out Q := by
  obtain ⟨h', e, o'⟩ := store_own (y := y) o
  have e' : (Ptr.store k r y >>= f) h = f () h' := by
    change (Ptr.store k r y h).bind (fun p => f p.1 p.2) = _
    rw [e]
    rfl
  have := hk h' o'
  unfold Wp at this ⊢
  rw [e']
  exact this

variable [AddCommGroup M] [Module Zr M]

theorem wp_mulBy (hx : At k h r x) (a : Zr) : Wp (mulBy k r a) h (some (a • x)) fun h' s y => Own k h h' s y :=
  Wp.load hx (wp_new k h (a • x))

theorem Wp.mulBy (hx : At k h r x) {a : Zr} {f : Ref → Run C γ} (hk : ∀ h' s, Own k h h' s (a • x) → Wp (f s) h' out Q) :
    Wp (Ptr.mulBy k r a >>= f) h out Q := Wp.step (wp_mulBy hx a) hk

omit [Module Zr M] in
theorem wp_addTo (o : Own k b h r x) (hy : At k h s y) : Wp (addTo k r s) h (some (x + y)) fun h' _ z => Own k b h' r z := by
  refine Wp.load o.at_ (Wp.load hy ?_)
  obtain ⟨h', e, o'⟩ := store_own (y := x + y) o
  unfold Wp
  rw [e]
  exact o'

omit [Module Zr M] in
theorem Wp.addTo (o : Own k b h r x) (hy : At k h s y) {f : Unit → Run C γ} (hk : ∀ h', Own k b h' r (x + y) → Wp (f ()) h' out Q) :
    Wp (Ptr.addTo k r s >>= f) h out Q := Wp.step (wp_addTo o hy) fun h' _ o' => hk h' o'

omit [Module Zr M] in
theorem wp_subFrom (o : Own k b h r x) (hy : At k h s y) : Wp (subFrom k r s) h (some (x - y)) fun h' _ z => Own k b h' r z := by
  refine Wp.load o.at_ (Wp.load hy ?_)
  obtain ⟨h', e, o'⟩ := store_own (y := x - y) o
  unfold Wp
  rw [e]
  exact o'

omit [Module Zr M] in
theorem Wp.subFrom (o : Own k b h r x) (hy : At k h s y) {f : Unit → Run C γ}
    (hk : ∀ h', Own k b h' r (x - y) → Wp (f ()) h' out Q) :
    Wp (Ptr.subFrom k r s >>= f) h out Q := Wp.step (wp_subFrom o hy) fun h' _ o' => hk h' o'

end steps

/-- A call that agrees, and what comes after it. -/
theorem Wp.call {m : Run C α} {h : Mem C} {out : Option β} {R : Mem C → α → β → Prop} {k : α → Run C γ} {g : β → Option δ}
    {Q : Mem C → γ → δ → Prop} (w : Agrees m h out R) (hk : ∀ h' a b, Keeps h h' → R h' a b → Wp (k a) h' (g b) Q) :
    Wp (m >>= k) h (out >>= g) Q := Wp.bind w fun h' a b hq => hk h' a b hq.1 hq.2

/-- As `Wp.call`, with the equation. -/
theorem Wp.callE {m : Run C α} {h : Mem C} {out : Option β} {R : Mem C → α → β → Prop} {k : α → Run C γ} {g : β → Option δ}
    {Q : Mem C → γ → δ → Prop} (w : Agrees m h out R) (hk : ∀ h' a b, out = some b → Keeps h h' → R h' a b → Wp (k a) h' (g b) Q) :
    Wp (m >>= k) h (out >>= g) Q := by
  cases out with
  | none => exact Wp.bind (Q' := fun _ _ _ => False) (agrees_iff.1 w |>.none_any) fun _ _ _ e => e.elim
  | some b => exact Wp.step w fun h' a e => hk h' a b rfl e.1 e.2

/-- A call that agrees and cannot panic. -/
theorem Wp.callT {m : Run C α} {h : Mem C} {b : β} {R : Mem C → α → β → Prop} {k : α → Run C γ} {out : Option δ}
    {Q : Mem C → γ → δ → Prop} (w : Agrees m h (some b) R) (hk : ∀ h' a, Keeps h h' → R h' a b → Wp (k a) h' out Q) :
    Wp (m >>= k) h out Q := Wp.step w fun h' a hq => hk h' a hq.1 hq.2

theorem agrees_mapM {ι ι' : Type} {f : ι → Run C α} {g : ι' → Option β} {R : Mem C → α → β → Prop}
    (hR : ∀ h h' a b, Keeps h h' → R h a b → R h' a b) {xs : List ι} {ys : List ι'} {h : Mem C}
    (hxy : List.Forall₂ (fun x y => ∀ h', Keeps h h' → Agrees (f x) h' (g y) R) xs ys) :
    Agrees (xs.mapM f) h (ys.mapM g) fun h' as bs => List.Forall₂ (R h') as bs := by
  have key : ∀ h', Keeps h h' → Agrees (xs.mapM f) h' (ys.mapM g) fun h' as bs => List.Forall₂ (R h') as bs := by
    induction hxy with
    | nil => intro h' _; exact ⟨Keeps.refl _, .nil⟩
    | cons hxy _ ih =>
      intro h' hk
      rw [List.mapM_cons, List.mapM_cons]
      refine Wp.call (hxy h' hk) fun h₁ a b k₁ r₁ => Wp.call (ih h₁ (hk.trans k₁)) fun h₂ as bs k₂ r₂ => ?_
      exact ⟨k₁.trans k₂, .cons (hR _ _ _ _ k₂ r₁) r₂⟩
  exact key h (Keeps.refl h)

theorem mapM_some_eq {ι : Type} (f : ι → β) (l : List ι) : l.mapM (fun x => some (f x)) = some (l.map f) := by
  induction l with
  | nil => rfl
  | cons a l ih => rw [List.mapM_cons, ih]; rfl

theorem agrees_mapM_total {ι ι' : Type} {f : ι → Run C α} {g : ι' → β} {R : Mem C → α → β → Prop}
    (hR : ∀ h h' a b, Keeps h h' → R h a b → R h' a b) {xs : List ι} {ys : List ι'} {h : Mem C}
    (hxy : List.Forall₂ (fun x y => ∀ h', Keeps h h' → Agrees (f x) h' (some (g y)) R) xs ys) :
    Agrees (xs.mapM f) h (some (ys.map g)) fun h' as bs => List.Forall₂ (R h') as bs := by
  rw [← mapM_some_eq]
  exact agrees_mapM hR hxy

theorem wp_forM {ι ι' : Type} {f : ι → Run C PUnit} {I : Mem C → δ → Prop} {step : δ → ι' → δ} {S : ι → ι' → Prop}
    (hstep : ∀ h d x y, S x y → I h d → Wp (f x) h (some (step d y)) fun h' _ d' => I h' d') {xs : List ι} {ys : List ι'}
    (hxy : List.Forall₂ S xs ys) (h : Mem C) (d : δ) (hI : I h d) :
    Wp (xs.forM f) h (some (ys.foldl step d)) fun h' _ d' => I h' d' := by
  induction hxy generalizing h d with
  | nil => exact hI
  | cons hxy _ ih =>
    rw [show (_ :: _).forM f = _ from List.forM_cons]
    exact Wp.step (hstep h d _ _ hxy hI) fun h' _ hI' => ih h' _ hI'

theorem at_mono (k : Kind C M) : ∀ (h h' : Mem C) (r : Ref) (x : M), Keeps h h' → At k h r x → At k h' r x :=
  fun _ _ _ _ hk hx => hx.mono hk

/-! ## Vectors -/

section vectors

variable [AddCommGroup M] [Module Zr M] {k : Kind C M} {h : Mem C}

theorem agrees_mulBy {r : Ref} {x : M} (hx : At k h r x) (a : Zr) : Agrees (mulBy k r a) h (some (a • x)) (At k) :=
  (wp_mulBy hx a).imp fun _ _ _ o => ⟨o.keeps, o.at_⟩

omit [AddCommGroup M] [Module Zr M] in
theorem agrees_copy {r : Ref} {x : M} (hx : At k h r x) : Agrees (copy k r) h (some x) (At k) :=
  (wp_copy hx).imp fun _ _ _ o => ⟨o.keeps, o.at_⟩

omit [AddCommGroup M] [Module Zr M] in
theorem agrees_loads {rs : List Ref} {xs : List M} (hx : Ats k h rs xs) :
    Agrees (loads k rs) h (some xs) fun _ ys zs => ys = zs := by
  have := agrees_mapM_total (f := fun r => load k r) (g := fun x : M => x) (R := fun _ y z => y = z) (fun _ _ _ _ _ e => e)
    (xs := rs) (ys := xs) (h := h) (hx.imp fun r x hr h' hk => (wp_load (hr.mono hk)).imp fun h'' y z e => by
      obtain ⟨rfl, rfl, rfl⟩ := e
      exact ⟨Keeps.refl _, rfl⟩)
  rw [List.map_id'] at this
  exact this.imp fun h' as bs e => ⟨e.1, List.forall₂_eq_eq_eq ▸ e.2⟩

theorem agrees_mul {rs : List Ref} {xs : List M} (hx : Ats k h rs xs) (a : Zr) :
    Agrees (Gv.mul k rs a) h (some (PoL.Gv.mul xs a)) (Ats k) :=
  agrees_mapM_total (at_mono k) (hx.imp fun _ _ hr _ hk => agrees_mulBy (hr.mono hk) a)

theorem zip_forall₂ {A B A' B' : Type} {R : A → B → Prop} {S : A' → B' → Prop} {xs : List A} {ys : List B} {xs' : List A'}
    {ys' : List B'} (h : List.Forall₂ R xs ys) (h' : List.Forall₂ S xs' ys') :
    List.Forall₂ (fun a b => R a.1 b.1 ∧ S a.2 b.2) (xs.zip xs') (ys.zip ys') := by
  induction h generalizing xs' ys' with
  | nil => simp
  | cons a _ ih =>
    cases h' with
    | nil => simp
    | cons b t => exact .cons ⟨a, b⟩ (ih t)

theorem forall₂_refl {A : Type} (l : List A) : List.Forall₂ (fun a b => a = b) l l := List.forall₂_refl l

omit [Module Zr M] in
theorem agrees_add {rs ss : List Ref} {xs ys : List M} (hx : Ats k h rs xs) (hy : Ats k h ss ys) :
    Agrees (Gv.add k rs ss) h (PoL.Gv.add xs ys) (Ats k) := by
  unfold Gv.add PoL.Gv.add
  rw [hx.length, hy.length]
  split
  · exact Agrees.crash
  · rw [← List.map_uncurry_zip_eq_zipWith]
    refine agrees_mapM_total (at_mono k) ((zip_forall₂ hx hy).imp fun e e' he h' hk => ?_)
    refine Wp.copy (he.1.mono hk) fun h₁ s o₁ => Wp.addTo o₁ (he.2.mono (hk.trans o₁.keeps)) fun h₂ o₂ => ?_
    exact ⟨o₂.keeps, o₂.at_⟩

omit [Module Zr M] in
theorem agrees_hadamard {rs ss : List Ref} {xs ys : List M} (hx : Ats k h rs xs) (hy : Ats k h ss ys) :
    Agrees (Gv.add k rs ss) h (PoL.Gv.hadamardProd xs ys) (Ats k) := agrees_add hx hy

omit [Module Zr M] in
theorem agrees_neg {gen : Ref} {g : M} {rs : List Ref} {xs : List M} (hg : At k h gen g) (hx : Ats k h rs xs) :
    Agrees (Gv.neg k gen rs) h (some (PoL.Gv.neg xs)) (Ats k) := by
  unfold Gv.neg PoL.Gv.neg
  refine Wp.copy hg fun h₁ z o₁ => Wp.subFrom o₁ o₁.at_ fun h₂ o₂ => ?_
  rw [sub_self] at o₂
  refine (agrees_mapM_total (h := h₂) (at_mono k) (hx.imp fun r x hr h' hk => ?_)).imp fun h' _ _ e => ⟨o₂.keeps.trans e.1, e.2⟩
  refine Wp.copy (o₂.at_.mono hk) fun h₃ s o₃ => Wp.subFrom o₃ (hr.mono ((o₂.keeps.trans hk).trans o₃.keeps)) fun h₄ o₄ => ?_
  exact ⟨o₄.keeps, o₄.at_⟩

theorem agrees_mulV {zero : Ref} {rs : List Ref} {xs : List M} (hz : At k h zero (0 : M)) (hx : Ats k h rs xs) (v : List Zr) :
    Agrees (Gv.mulV k zero rs v) h (PoL.Gv.mulV xs v) (Ats k) := by
  unfold Gv.mulV PoL.Gv.mulV
  rw [hx.length]
  split
  · exact Agrees.crash
  · rw [← List.map_uncurry_zip_eq_zipWith]
    refine agrees_mapM_total (at_mono k) ((zip_forall₂ hx (forall₂_refl v)).imp fun e e' he h' hk => ?_)
    obtain ⟨h1, h2⟩ := he
    rw [h2]
    unfold Function.uncurry
    dsimp only
    split
    · exact ⟨Keeps.refl _, hz.mono hk⟩
    · exact agrees_mulBy (h1.mono hk) _

theorem agrees_mulv2 {rs : List Ref} {xs : List M} (hx : Ats k h rs xs) (v : List Zr) :
    Agrees (Gv.mulv2 k rs v) h (PoL.Gv.mulv2 xs v) (Ats k) := by
  unfold Gv.mulv2 PoL.Gv.mulv2
  rw [hx.length]
  split
  · exact Agrees.crash
  · rw [← List.map_uncurry_zip_eq_zipWith]
    refine agrees_mapM_total (at_mono k) ((zip_forall₂ hx (forall₂_refl v)).imp fun e e' he h' hk => ?_)
    obtain ⟨h1, h2⟩ := he
    rw [h2]
    exact agrees_mulBy (h1.mono hk) _

omit [Module Zr M] in
theorem wp_sum [DecidableEq M] {rs : List Ref} {xs : List M} (hx : Ats k h rs xs) :
    Wp (Gv.sum k rs) h (PoL.Gv.sum xs) fun h' r x => Own k h h' r x := by
  cases hx with
  | nil => exact Wp.crash
  | cons hr hx =>
    refine Wp.copy hr fun h₁ s o₁ => ?_
    refine Wp.step (wp_forM (I := fun h' acc => Own k h h' s acc) (S := fun r x => At k h r x) (fun h' d r x hs hI => ?_) hx h₁ _ o₁)
      fun h₂ _ o₂ => o₂
    refine Wp.load (hs.mono hI.keeps) ?_
    split
    · exact hI
    · exact wp_addTo hI (hs.mono hI.keeps)

omit [Module Zr M] in
theorem agrees_sum [DecidableEq M] {rs : List Ref} {xs : List M} (hx : Ats k h rs xs) :
    Agrees (Gv.sum k rs) h (PoL.Gv.sum xs) (At k) := (wp_sum hx).imp fun _ _ _ o => ⟨o.keeps, o.at_⟩

omit [Module Zr M] in
theorem agrees_sum2 {rs : List Ref} {xs : List M} (hx : Ats k h rs xs) :
    Agrees (Gv.sum2 k rs) h (PoL.Gv.sum2 xs) (At k) := by
  cases hx with
  | nil => exact Agrees.crash
  | cons hr hx =>
    refine Wp.copy hr fun h₁ s o₁ => ?_
    refine Wp.step (wp_forM (I := fun h' acc => Own k h h' s acc) (S := fun r x => At k h r x) (fun h' d r x hs hI => ?_) hx h₁ _ o₁)
      fun h₂ _ o₂ => ⟨o₂.keeps, o₂.at_⟩
    exact wp_addTo hI (hs.mono hI.keeps)

omit [AddCommGroup M] [Module Zr M] in
theorem agrees_duplicate {rs : List Ref} {xs : List M} (hx : Ats k h rs xs) (n : ℕ) :
    Agrees (Gv.duplicate k rs n) h (PoL.Gv.duplicate xs n) (Ats k) := by
  cases hx with
  | nil => exact Agrees.crash
  | cons hr hx =>
    cases hx with
    | cons _ _ => exact Agrees.crash
    | nil =>
      rename_i r x
      have := agrees_mapM_total (f := fun r => copy k r) (g := fun x : M => x) (at_mono k) (h := h)
        (xs := List.replicate n r) (ys := List.replicate n x) (by
          induction n with
          | zero => exact .nil
          | succ n ih => exact .cons (fun h' hk => agrees_copy (hr.mono hk)) ih)
      rw [List.map_id'] at this
      exact this

theorem agrees_exp (v : List Zr) {rs : List Ref} {xs : List M} (hx : Ats k h rs xs) :
    Agrees (exp k v rs) h (Vec.exp v xs) (At k) := by
  unfold exp Vec.exp
  rw [hx.length]
  split
  · exact Agrees.crash
  · cases v with
    | nil => cases hx <;> exact Agrees.crash
    | cons a v =>
      cases hx with
      | nil => exact Agrees.crash
      | cons hr hx =>
        refine Wp.mulBy hr fun h₁ s o₁ => ?_
        dsimp only
        rw [List.zipWith_comm, ← List.map_uncurry_zip_eq_zipWith, List.foldl_map]
        refine Wp.step (wp_forM (I := fun h' acc => Own k h h' s acc) (S := fun a b => At k h a.1 b.1 ∧ a.2 = b.2)
          (step := fun acc e => acc + Function.uncurry (fun b a => a • b) e)
          (fun h' d r x hs hI => ?_) (zip_forall₂ hx (forall₂_refl v)) h₁ _ o₁)
          fun h₂ _ o₂ => ⟨o₂.keeps, o₂.at_⟩
        obtain ⟨e1, e2⟩ := hs
        rw [e2]
        exact Wp.mulBy (e1.mono hI.keeps) fun h₂ t o₂ => wp_addTo (hI.call o₂.keeps) o₂.at_

end vectors

theorem store_eq {k : Kind C M} {h : Mem C} {r : Ref} {x : M} (hx : At k h r x) (y : M) :
    store k r y h = some ((), ⟨h.cells.set r.addr (k.put y), h.written ++ [r.addr]⟩) := by
  unfold store
  rw [if_pos (List.getElem?_eq_some_iff.1 hx).1]

section inplace

variable [AddCommGroup M] [Module Zr M] {k : Kind C M} {h : Mem C} {r s : Ref} {x y : M}

theorem wp_add_at (hx : At k h r x) (hy : At k h s y) : Wp (addTo k r s) h (some (x + y)) fun h' _ z =>
    h'.cells = h.cells.set r.addr (k.put (x + y)) ∧ h'.written = h.written ++ [r.addr] ∧ z = x + y := by
  refine Wp.load hx (Wp.load hy ?_)
  unfold Wp
  rw [store_eq hx]
  exact ⟨rfl, rfl, rfl⟩

theorem wp_sub_at (hx : At k h r x) (hy : At k h s y) : Wp (subFrom k r s) h (some (x - y)) fun h' _ z =>
    h'.cells = h.cells.set r.addr (k.put (x - y)) ∧ h'.written = h.written ++ [r.addr] ∧ z = x - y := by
  refine Wp.load hx (Wp.load hy ?_)
  unfold Wp
  rw [store_eq hx]
  exact ⟨rfl, rfl, rfl⟩

/-- As `wp_addTo`; other cells keep what they contain. -/
theorem Wp.addTo_frame {b : Mem C} {f : Unit → Run C γ} {out : Option δ} {Q : Mem C → γ → δ → Prop} (o : Own k b h r x)
    (hy : At k h s y)
    (hk : ∀ h', Own k b h' r (x + y) → (∀ {M' : Type} (k' : Kind C M') (r' : Ref) (z : M'), r'.addr ≠ r.addr → At k' h r' z → At k' h' r' z) →
      Wp (f ()) h' out Q) : Wp (Ptr.addTo k r s >>= f) h out Q := by
  have w1 := wp_addTo o hy
  have w2 := wp_add_at o.at_ hy
  refine Wp.step (b := x + y) (Q' := fun h' _ z => Own k b h' r z ∧ h'.cells = h.cells.set r.addr (k.put (x + y))) ?_ ?_
  · unfold Wp at *
    split <;> simp_all
  · intro h' _ e
    refine hk h' e.1 fun k' r' z hne hz => ?_
    unfold At at hz ⊢
    rw [e.2, List.getElem?_set_ne hne.symm]
    exact hz

end inplace

theorem sliceTo_rel {R : α → β → Prop} {xs : List α} {ys : List β} (h : List.Forall₂ R xs ys) (n : ℕ) :
    ORel (List.Forall₂ R) (sliceTo xs n) (sliceTo ys n) := by
  unfold sliceTo
  rw [h.length_eq]
  split
  · exact .inr ⟨_, _, rfl, rfl, List.forall₂_take n h⟩
  · exact .inl ⟨rfl, rfl⟩

theorem sliceFrom_rel {R : α → β → Prop} {xs : List α} {ys : List β} (h : List.Forall₂ R xs ys) (n : ℕ) :
    ORel (List.Forall₂ R) (sliceFrom xs n) (sliceFrom ys n) := by
  unfold sliceFrom
  rw [h.length_eq]
  split
  · exact .inr ⟨_, _, rfl, rfl, List.forall₂_drop n h⟩
  · exact .inl ⟨rfl, rfl⟩

section pairing

variable {G1 G2 GT : Type} [AddCommGroup G1] [Module Zr G1] [AddCommGroup G2] [Module Zr G2] [AddCommGroup GT] [Module Zr GT]

theorem wp_pairProd (E : Curve G1 G2 GT) {h : Mem (Cell G1 G2 GT)} {rs ss : List Ref} {xs : List G1} {ys : List G2}
    (hx : Ats kG1 h rs xs) (hy : Ats kG2 h ss ys) :
    Wp (pairProd E rs ss) h (PoL.pairProd E xs ys) fun h' r x => Own kGt h h' r x := by
  unfold pairProd PoL.pairProd
  rw [hx.length, hy.length]
  split
  · exact Wp.crash
  · cases hx with
    | nil => cases hy <;> exact Wp.crash
    | cons hr hx =>
      cases hy with
      | nil => exact Wp.crash
      | cons hs hy =>
        dsimp only
        rw [← List.map_uncurry_zip_eq_zipWith, List.foldl_map]
        refine Wp.load hr (Wp.load hs (Wp.new fun h₁ t o₁ => ?_))
        refine Wp.step (wp_forM (I := fun h' acc => Own kGt h h' t acc) (S := fun a b => At kG1 h a.1 b.1 ∧ At kG2 h a.2 b.2)
          (step := fun acc e => acc + Function.uncurry (fun b a => E.pair b a) e)
          (fun h' d r x hs hI => ?_) (zip_forall₂ hx hy) h₁ _ o₁) fun h₂ _ o₂ => ?_
        · exact Wp.load (hs.1.mono hI.keeps) (Wp.load (hs.2.mono hI.keeps) (Wp.new fun h₂ u o₂ => wp_addTo (hI.call o₂.keeps) o₂.at_))
        · exact (wp_copy o₂.at_).imp fun h₃ u z o₃ => ⟨o₂.keeps.trans o₃.keeps, o₂.keeps.length_le.trans o₃.fresh, o₃.at_⟩

theorem agrees_randGenVec (E : Curve G1 G2 GT) {h : Mem (Cell G1 G2 GT)} (n : ℕ) (context : String) :
    Agrees (randGenVec E n context) h (some (PoL.randGenVec E n context)) (Ats kG1) := by
  have := agrees_mapM_total (f := fun p => new kG1 p) (g := fun x : G1 => x) (at_mono (kG1 (G2 := G2) (GT := GT))) (h := h)
    (xs := PoL.randGenVec E n context) (ys := PoL.randGenVec E n context)
    ((forall₂_refl _).imp fun p q e h' _ => by
      subst e
      exact agrees_iff.2 ((wp_new kG1 h' p).imp fun _ _ _ o => ⟨o.keeps, o.at_⟩))
  rw [List.map_id'] at this
  exact this

/-- Only lookups and hashes: what a computation that makes no cell returns. -/
theorem Wp.loads {k : Kind C M} {h : Mem C} {rs : List Ref} {xs : List M} (hx : Ats k h rs xs) {f : List M → Run C γ} {out : Option δ}
    {Q : Mem C → γ → δ → Prop} (hk : Wp (f xs) h out Q) : Wp (Ptr.loads k rs >>= f) h out Q := by
  have e : Ptr.loads k rs h = some (xs, h) := by
    unfold Ptr.loads
    clear hk
    induction hx with
    | nil => rfl
    | cons a _ ih =>
      rename_i l _ _
      rw [List.mapM_cons]
      change (Ptr.load k _ h).bind _ = _
      rw [load_eq a]
      change (List.mapM (fun r => Ptr.load k r) l h).bind _ = _
      rw [ih]
      rfl
  have e' : (Ptr.loads k rs >>= f) h = f xs h := by
    change (Ptr.loads k rs h).bind (fun p => f p.1 p.2) = _
    rw [e]
    rfl
  unfold Wp at hk ⊢
  rw [e']
  exact hk

end pairing

/-! ## The vector commitment -/

namespace PP

variable {G1 G2 GT : Type} [AddCommGroup G1] [Module Zr G1] [AddCommGroup G2] [Module Zr G2] [AddCommGroup GT] [Module Zr GT]
  [DecidableEq G1] [DecidableEq GT] {E : Curve G1 G2 GT} {h : Mem (Cell G1 G2 GT)} {gl : Globals} {p : PoL.PP Ref Ref Ref}
  {q : PoL.PP G1 G2 GT}

omit [DecidableEq GT] in
theorem wp_commit (hg : GlobalsAt E h gl) (hp : PPAt h p q) (m : List Zr) :
    Wp (commit gl p m) h (PoL.PP.commit q m) fun h' r x => Own kG1 h h' r x := by
  unfold commit PoL.PP.commit
  rw [hp.N]
  split
  · exact Wp.crash
  · refine Wp.lift₂ (mapM_rel fun i _ => hp.G1s.get i) fun rs xs hx => ?_
    refine Wp.call (agrees_mulV hg.zeroG1 hx m) fun h₁ ss ys k₁ hy => (wp_sum hy).imp fun h₂ r x o => ?_
    exact ⟨k₁.trans o.keeps, k₁.length_le.trans o.fresh, o.at_⟩

omit [DecidableEq GT] in
theorem agrees_commit (hg : GlobalsAt E h gl) (hp : PPAt h p q) (m : List Zr) :
    Agrees (commit gl p m) h (PoL.PP.commit q m) (At kG1) := (wp_commit hg hp m).imp fun _ _ _ o => ⟨o.keeps, o.at_⟩

omit [DecidableEq GT] in
theorem agrees_openAt (hg : GlobalsAt E h gl) (hp : PPAt h p q) (i : ℕ) (m : List Zr) :
    Agrees (openAt gl p i m) h (PoL.PP.openAt q i m) fun h' a b => a.1 = b.1 ∧ At kG1 h' a.2 b.2 := by
  unfold openAt PoL.PP.openAt
  rw [hp.N]
  split
  · exact Agrees.crash
  · refine Wp.lift₂ (mapM_rel fun i _ => hp.G1s.get _) fun rs xs hx => Wp.lift fun ms _ => ?_
    refine Wp.call (agrees_mulV hg.zeroG1 hx ms) fun h₁ ss ys k₁ hy => Wp.call (agrees_sum hy) fun h₂ r x k₂ hr => ?_
    exact Wp.lift fun mi _ => ⟨k₁.trans k₂, rfl, hr⟩

theorem agrees_verify (hg : GlobalsAt E h gl) (hp : PPAt h p q) (mi : Zr) {π c : Ref} {π' c' : G1} (hπ : At kG1 h π π')
    (hc : At kG1 h c c') (i : ℕ) : Agrees (verify E gl p mi π c i) h (PoL.PP.verify E q mi π' c' i) fun _ a b => a = b := by
  unfold verify PoL.PP.verify
  rw [hp.N]
  split
  · exact Agrees.crash
  · refine Wp.lift₂ (hp.G2s.get _) fun r2 g2 h2 => ?_
    refine Wp.bind (wp_pairProd E (.cons hc .nil) (.cons h2 .nil)) fun h₁ l x o₁ => ?_
    refine Wp.bind (wp_pairProd E (.cons (hπ.mono o₁.keeps) .nil) (.cons (hg.genG2.mono o₁.keeps) .nil)) fun h₂ r y o₂ => ?_
    refine Wp.mulBy ((hp.Gt.mono o₁.keeps).mono o₂.keeps) fun h₃ t o₃ => ?_
    refine Wp.addTo (o₂.call o₃.keeps) o₃.at_ fun h₄ o₄ => ?_
    exact Wp.load (o₁.at_.mono o₄.keeps) (Wp.load o₄.at_ ⟨o₁.keeps.trans o₄.keeps, rfl⟩)

omit [DecidableEq GT] in
/-- `Update` writes to the commitment it is given. -/
theorem wp_update (hp : PPAt h p q) {c : Ref} {c' : G1} (hc : At kG1 h c c') (m : List Zr) (mi : Zr) (i : ℕ) :
    Wp (update p c m mi i) h (PoL.PP.update q c' m mi i) fun h' _ x => WritesOnly c h h' ∧ At kG1 h' c x := by
  unfold update PoL.PP.update
  refine Wp.lift₂ (hp.G1s.get _) fun r g hr => Wp.lift fun a _ => ?_
  refine Wp.mulBy hr fun h₁ s o₁ => Wp.mulBy (hr.mono o₁.keeps) fun h₂ t o₂ => ?_
  have hlt : c.addr < h.cells.length := (List.getElem?_eq_some_iff.1 hc).1
  have k₂ := o₁.keeps.trans o₂.keeps
  obtain ⟨l, hl⟩ := k₂.cells
  have hlt₂ : c.addr < h₂.cells.length := lt_of_lt_of_le hlt k₂.length_le
  have hs := o₁.at_.mono o₂.keeps
  have ht := o₂.at_
  have hsne : c.addr ≠ s.addr := (lt_of_lt_of_le hlt o₁.fresh).ne
  have htne : c.addr ≠ t.addr := (lt_of_lt_of_le hlt (o₁.keeps.length_le.trans o₂.fresh)).ne
  refine Wp.step (wp_sub_at (hc.mono k₂) hs) fun h₃ _ e₃ => ?_
  have ht₃ : At kG1 h₃ t (mi • g) := by
    unfold At at ht ⊢
    rw [e₃.1, List.getElem?_set_ne htne]
    exact ht
  have hc₃ : At kG1 h₃ c (c' - a • g) := by
    unfold At
    rw [e₃.1, List.getElem?_set_self hlt₂]
  refine (wp_add_at hc₃ ht₃).imp fun h₄ _ x e₄ => ?_
  obtain ⟨e₄, w₄, rfl⟩ := e₄
  refine ⟨⟨fun b v hb hv => ?_, ?_⟩, ?_⟩
  · rw [e₄, e₃.1, List.set_set, List.getElem?_set_ne hb.symm, ← hl, List.getElem?_append_left (List.getElem?_eq_some_iff.1 hv).1]
    exact hv
  · obtain ⟨w, hw, hw'⟩ := k₂.written
    refine ⟨w ++ [c.addr] ++ [c.addr], by rw [w₄, e₃.2.1, hw]; simp, fun b hb => ?_⟩
    rcases List.mem_append.1 hb with hb | hb
    · rcases List.mem_append.1 hb with hb | hb
      · exact .inr (hw' b hb)
      · exact .inl (List.mem_singleton.1 hb)
    · exact .inl (List.mem_singleton.1 hb)
  · unfold At
    rw [e₄, e₃.1, List.set_set, List.getElem?_set_self hlt₂]

omit [DecidableEq GT] in
theorem wp_ro (hp : PPAt h p q) {cs : List Ref} {cs' : List G1} (hcs : Ats kG1 h cs cs') (i : ℕ) :
    Wp (ro E p cs i) h (PoL.PP.ro E q cs' i) fun h' a b => h' = h ∧ a = b := by
  unfold ro PoL.PP.ro
  refine Wp.loads hcs ?_
  unfold PoL.PP.roInput
  rw [hp.digest]
  exact Wp.lift' fun b _ => ⟨rfl, rfl⟩

omit [DecidableEq GT] in
theorem agrees_aggregate (hp : PPAt h p q) {cs πs : List Ref} {cs' πs' : List G1} (hcs : Ats kG1 h cs cs') (hπ : Ats kG1 h πs πs') :
    Agrees (aggregate E p cs πs) h (PoL.PP.aggregate q cs' πs' (PoL.PP.ro E)) (At kG1) := by
  unfold aggregate PoL.PP.aggregate
  rw [hcs.length, hπ.length]
  split
  · exact Agrees.crash
  · refine Wp.call (agrees_mapM (at_mono kG1) ((forall₂_refl _).imp fun i j e h' hk => ?_)) fun h₁ rs xs k₁ hx =>
      (agrees_sum hx).imp fun h₂ r x e => ⟨k₁.trans e.1, e.2⟩
    subst e
    refine Wp.bind (wp_ro (hp.mono hk) (hcs.mono hk) i) fun h₂ a b e => ?_
    obtain ⟨rfl, rfl⟩ := e
    exact Wp.lift₂ ((hπ.mono hk).get i) fun r x hr => agrees_mulBy hr a

theorem agrees_verifyAggregation (hg : GlobalsAt E h gl) (hp : PPAt h p q) (indices : List ℕ) {cs : List Ref} {cs' : List G1} {π : Ref}
    {π' : G1} (hcs : Ats kG1 h cs cs') (hπ : At kG1 h π π') (sig : Zr) :
    Agrees (verifyAggregation E gl p indices cs π sig) h (PoL.PP.verifyAggregation E q indices cs' π' sig (PoL.PP.ro E))
      fun _ a b => a = b := by
  unfold verifyAggregation PoL.PP.verifyAggregation
  refine Wp.call (agrees_mapM (R := fun _ a b => a = b) (fun _ _ _ _ _ e => e) ((forall₂_refl _).imp fun i j e h' hk => ?_))
    fun h₁ as bs k₁ e => ?_
  · subst e
    refine (wp_ro (hp.mono hk) (hcs.mono hk) i).imp fun h₂ a b e => ?_
    obtain ⟨rfl, rfl⟩ := e
    exact ⟨Keeps.refl _, rfl⟩
  · rw [List.forall₂_eq_eq_eq] at e
    subst e
    refine Wp.lift₂ (R := Ats kG2 h) (mapM_rel fun i _ => ?_) fun rs xs hx => ?_
    · rw [hp.N]
      split
      · exact .inl ⟨rfl, rfl⟩
      · exact hp.G2s.get _
    · refine Wp.call (agrees_mulv2 (hx.mono k₁) as) fun h₂ ss ys k₂ hy => ?_
      have k₂ := k₁.trans k₂
      refine Wp.bind (wp_pairProd E (hcs.mono k₂) hy) fun h₃ l x o₃ => ?_
      have k₃ := k₂.trans o₃.keeps
      refine Wp.bind (wp_pairProd E (.cons (hπ.mono k₃) .nil) (.cons (hg.genG2.mono k₃) .nil)) fun h₄ r y o₄ => ?_
      have k₄ := k₃.trans o₄.keeps
      refine Wp.mulBy (hp.Gt.mono k₄) fun h₅ t o₅ => ?_
      refine Wp.addTo o₅ (o₄.at_.mono o₅.keeps) fun h₆ o₆ => ?_
      exact Wp.load o₆.at_ (Wp.load ((o₃.at_.mono o₄.keeps).mono o₆.keeps) ⟨k₄.trans o₆.keeps, rfl⟩)

end PP

end PoL.Ptr
