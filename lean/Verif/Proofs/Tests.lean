import Verif.Model.Tests
import Verif.Proofs.Vec

/-!
# Helper lemmas about the model of the tests
-/

set_option linter.unusedSectionVars false

namespace PoL.Tests

theorem forAll_true {α : Type} (l : List α) (body : α → Option Bool) (h : ∀ a ∈ l, body a = some true) :
    forAll l body = some true := by
  unfold forAll
  induction l with
  | nil => rfl
  | cons a l ih =>
    rw [List.foldlM_cons]
    refine obind_step (a := true) ?_ (ih fun b hb => h b (List.mem_cons_of_mem _ hb))
    rw [h a List.mem_cons_self]; rfl

theorem forAllState_inv {α σ : Type} (l : List α) (s : σ) (body : α → σ → Option (Bool × σ)) 
    (h : ∀ a ∈ l, body a s = some (true, s)) : forAllState l s body = some (true, s) := by
  unfold forAllState
  induction l with
  | nil => rfl
  | cons a l ih =>
    rw [List.foldlM_cons]
    refine obind_step (a := (true, s)) ?_ (ih fun b hb => h b (List.mem_cons_of_mem _ hb))
    dsimp only
    rw [h a List.mem_cons_self]; rfl

theorem mapM_total {A B : Type} (f : A → Option B) (z : A → B) : ∀ l : List A, (∀ a ∈ l, f a = some (z a)) →
    l.mapM f = some (l.map z)
  | [], _ => rfl
  | a :: l, h => by
    rw [List.mapM_cons, h a List.mem_cons_self, mapM_total f z l fun a ha => h a (List.mem_cons_of_mem _ ha)]
    rfl

theorem foldl_bits : ∀ (l : List (ℕ × ℕ)) (x : Zr), (∀ b ∈ l, b.1 = 0 ∨ b.1 = 1) →
    l.foldl (fun n2 b => if b.1 = 0 then n2 else n2 + intToZr 2 ^ b.2) x
      = x + ((l.map fun p => p.1 * 2 ^ p.2).sum : ℕ)
  | [], x, _ => by simp
  | (b, i) :: l, x, h => by
    rw [List.foldl_cons, foldl_bits l _ fun b hb => h b (List.mem_cons_of_mem _ hb)]
    rcases h (b, i) List.mem_cons_self with h0 | h0 <;> simp only at h0 <;> subst h0
    · simp
    · simp [intToZr, add_assoc]

end PoL.Tests
