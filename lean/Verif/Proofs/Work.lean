import Verif.Spec.Work
import Verif.Proofs.Range
import Verif.Proofs.Bits

/-!
# Counting points
-/

namespace PoL.Ptr

open Spec

variable {C M α β : Type}

/-- If the computation returns, it has made a number of points that, with its result, satisfies `P`. -/
def Costs (m : Run C α) (P : α → ℕ → Prop) : Prop :=
  ∀ h a h', m h = some (a, h') → ∃ n, h'.cells.length = h.cells.length + n ∧ P a n

theorem Costs.imp {m : Run C α} {P Q : α → ℕ → Prop} (c : Costs m P) (hPQ : ∀ a n, P a n → Q a n) : Costs m Q := by
  intro h a h' e
  obtain ⟨n, hn, hP⟩ := c h a h' e
  exact ⟨n, hn, hPQ a n hP⟩

theorem Costs.pure {a : α} {P : α → ℕ → Prop} (hP : P a 0) : Costs (Pure.pure a : Run C α) P := by
  intro h b h' e
  obtain ⟨rfl, rfl⟩ := Prod.mk.inj (Option.some.inj e)
  exact ⟨0, rfl, hP⟩

theorem Costs.crash {P : α → ℕ → Prop} : Costs (Ptr.crash : Run C α) P := fun _ _ _ e => nomatch e

theorem Costs.bind {m : Run C α} {f : α → Run C β} {P : α → ℕ → Prop} {Q : β → ℕ → Prop} (c : Costs m P)
    (hf : ∀ a n, P a n → Costs (f a) fun b k => Q b (n + k)) : Costs (m >>= f) Q := by
  intro h b h' e
  simp only [Bind.bind, StateT.bind] at e
  cases hm : m h with
  | none => rw [hm] at e; exact nomatch e
  | some r =>
    rw [hm] at e
    obtain ⟨n, hn, hP⟩ := c h r.1 r.2 hm
    obtain ⟨k, hk, hQ⟩ := hf r.1 n hP r.2 b h' e
    exact ⟨n + k, by omega, hQ⟩

/-- A step that makes a fixed number of points. -/
theorem Costs.step {m : Run C α} {f : α → Run C β} {k : ℕ} {Q : β → ℕ → Prop} (c : Costs m fun _ n => n = k)
    (hf : ∀ a, Costs (f a) fun b j => Q b (k + j)) : Costs (m >>= f) Q :=
  Costs.bind c fun a n e => by subst e; exact hf a

/-- A step that makes no points. -/
theorem Costs.free {m : Run C α} {f : α → Run C β} {Q : β → ℕ → Prop} (c : Costs m fun _ n => n = 0)
    (hf : ∀ a, Costs (f a) Q) : Costs (m >>= f) Q :=
  Costs.step c fun a => by simpa using hf a

theorem Costs.lift {o : Option α} {f : α → Run C β} {Q : β → ℕ → Prop} (hf : ∀ a, o = some a → Costs (f a) Q) :
    Costs (Ptr.lift o >>= f) Q := by
  refine Costs.bind (P := fun a n => n = 0 ∧ o = some a) ?_ ?_
  · intro h a h' e
    cases o with
    | none => exact nomatch e
    | some b =>
      obtain ⟨rfl, rfl⟩ := Prod.mk.inj (Option.some.inj e)
      exact ⟨0, rfl, rfl, rfl⟩
  · rintro a n ⟨rfl, ho⟩
    simpa using hf a ho

theorem costs_lift {o : Option α} : Costs (Ptr.lift o : Run C α) fun _ n => n = 0 := by
  intro h a h' e
  cases o with
  | none => exact nomatch e
  | some b =>
    obtain ⟨rfl, rfl⟩ := Prod.mk.inj (Option.some.inj e)
    exact ⟨0, rfl, rfl⟩

theorem costs_new (k : Kind C M) (x : M) : Costs (new k x) fun _ n => n = 1 := by
  intro h a h' e
  obtain ⟨rfl, rfl⟩ := Prod.mk.inj (Option.some.inj e)
  exact ⟨1, by simp, rfl⟩

theorem costs_load (k : Kind C M) (r : Ref) : Costs (load k r) fun _ n => n = 0 := by
  intro h a h' e
  simp only [load, Option.bind_eq_bind, Option.bind_eq_some_iff] at e
  obtain ⟨c, -, x, -, e⟩ := e
  obtain ⟨rfl, rfl⟩ := Prod.mk.inj (Option.some.inj e)
  exact ⟨0, rfl, rfl⟩

theorem costs_store (k : Kind C M) (r : Ref) (x : M) : Costs (store k r x) fun _ n => n = 0 := by
  intro h a h' e
  simp only [store] at e
  split at e
  · obtain ⟨rfl, rfl⟩ := Prod.mk.inj (Option.some.inj e)
    exact ⟨0, by simp, rfl⟩
  · exact nomatch e

theorem costs_copy (k : Kind C M) (r : Ref) : Costs (copy k r) fun _ n => n = 1 :=
  Costs.free (costs_load k r) fun _ => costs_new k _

theorem costs_mapM {ι : Type} {f : ι → Run C α} {c : ι → ℕ} : ∀ {l : List ι}, (∀ i ∈ l, Costs (f i) fun _ n => n = c i) →
    Costs (l.mapM f) fun rs n => n = (l.map c).sum ∧ rs.length = l.length
  | [], _ => by
    rw [List.mapM_nil]
    exact Costs.pure ⟨rfl, rfl⟩
  | i :: l, hl => by
    rw [List.mapM_cons]
    refine Costs.step (hl i (by simp)) fun a => ?_
    refine Costs.bind (costs_mapM fun j hj => hl j (by simp [hj])) ?_
    rintro as n ⟨rfl, hlen⟩
    exact Costs.pure ⟨by simp, by simp [hlen]⟩

theorem costs_forM {ι : Type} {f : ι → Run C PUnit} {c : ℕ} : ∀ {l : List ι}, (∀ i ∈ l, Costs (f i) fun _ n => n = c) →
    Costs (l.forM f) fun _ n => n = l.length * c
  | [], _ => by
    show Costs (Pure.pure PUnit.unit) _
    exact Costs.pure (by simp)
  | i :: l, hl => by
    show Costs (f i >>= fun _ => l.forM f) _
    refine Costs.step (hl i (by simp)) fun _ => ?_
    refine (costs_forM (c := c) fun j hj => hl j (by simp [hj])).imp ?_
    rintro _ n rfl
    simp [Nat.add_mul, Nat.add_comm]

theorem costs_loads (k : Kind C M) (g : List Ref) : Costs (loads k g) fun _ n => n = 0 :=
  (costs_mapM (c := fun _ => 0) fun i _ => costs_load k i).imp fun _ n h => by simpa using h.1

variable [AddCommGroup M] [Module Zr M]

theorem costs_mulBy (k : Kind C M) (r : Ref) (a : Zr) : Costs (mulBy k r a) fun _ n => n = 1 :=
  Costs.free (costs_load k r) fun _ => costs_new k _

omit [Module Zr M] in
theorem costs_addTo (k : Kind C M) (r s : Ref) : Costs (addTo k r s) fun _ n => n = 0 :=
  Costs.free (costs_load k r) fun _ => Costs.free (costs_load k s) fun _ => costs_store k r _

omit [Module Zr M] in
theorem costs_subFrom (k : Kind C M) (r s : Ref) : Costs (subFrom k r s) fun _ n => n = 0 :=
  Costs.free (costs_load k r) fun _ => Costs.free (costs_load k s) fun _ => costs_store k r _

omit [Module Zr M] in
theorem costs_add (k : Kind C M) (g g2 : List Ref) :
    Costs (Gv.add k g g2) fun rs n => n = g.length ∧ rs.length = g.length ∧ g.length ≤ g2.length := by
  unfold Gv.add
  split
  · exact Costs.crash
  · rename_i hlen
    refine (costs_mapM (c := fun _ => 1) fun e _ => ?_).imp ?_
    · exact Costs.step (costs_copy k _) fun r => Costs.free (costs_addTo k _ _) fun _ => Costs.pure rfl
    · rintro rs n ⟨rfl, h⟩
      simp only [List.map_const', List.sum_replicate, List.length_zip, smul_eq_mul, mul_one] at h ⊢
      omega

theorem costs_mul (k : Kind C M) (g : List Ref) (x : Zr) : Costs (Gv.mul k g x) fun rs n => n = g.length ∧ rs.length = g.length :=
  (costs_mapM (c := fun _ => 1) fun e _ => costs_mulBy k e x).imp fun rs n h => by simpa using h

theorem nonZero_eq (v : List Zr) : nonZero v = (v.map fun x => if x = 0 then 0 else 1).sum := by
  induction v with
  | nil => rfl
  | cons x v ih => simp [nonZero, ih]

theorem nonZero_append (v w : List Zr) : nonZero (v ++ w) = nonZero v + nonZero w := by simp [nonZero_eq]

theorem costs_mulV (k : Kind C M) (zero : Ref) (g : List Ref) (v : List Zr) :
    Costs (Gv.mulV k zero g v) fun rs n => n = nonZero v ∧ rs.length = g.length ∧ g.length = v.length := by
  unfold Gv.mulV
  split
  · exact Costs.crash
  · rename_i hlen
    rw [not_not] at hlen
    refine (costs_mapM (c := fun e => if e.2 = 0 then 0 else 1) fun e _ => ?_).imp ?_
    · split
      · exact Costs.pure rfl
      · exact costs_mulBy k _ _
    · rintro rs n ⟨rfl, h⟩
      refine ⟨?_, by simpa [hlen] using h, hlen⟩
      rw [nonZero_eq]
      conv_rhs => rw [← List.map_snd_zip (l₁ := g) (l₂ := v) (by omega)]
      rw [List.map_map]
      rfl

omit [Module Zr M] in
theorem costs_sum [DecidableEq M] (k : Kind C M) : ∀ g : List Ref, Costs (Gv.sum k g) fun _ n => n = 1
  | [] => Costs.crash
  | g0 :: gs => by
    refine Costs.step (costs_copy k g0) fun s => ?_
    refine Costs.free ((costs_forM (c := 0) fun g _ => ?_).imp fun _ n h => by simpa using h) fun _ => Costs.pure rfl
    refine Costs.free (costs_load k g) fun x => ?_
    split
    · exact Costs.pure rfl
    · exact costs_addTo k _ _

theorem costs_exp (k : Kind C M) (v : List Zr) (g : List Ref) : Costs (exp k v g) fun _ n => n = v.length ∧ v.length = g.length := by
  unfold exp
  split
  · exact Costs.crash
  · rename_i hlen
    rw [not_not] at hlen
    split
    · rename_i v0 vs g0 gs
      refine Costs.step (costs_mulBy k _ _) fun r => ?_
      refine Costs.step (costs_forM (c := 1) fun e _ => ?_) fun _ => Costs.pure ?_
      · exact Costs.step (costs_mulBy k _ _) fun _ => (costs_addTo k _ _).imp (by rintro _ _ rfl; rfl)
      · simp at hlen ⊢
        omega
    · exact Costs.crash

end PoL.Ptr
