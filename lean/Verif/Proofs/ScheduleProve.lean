import Verif.Model.Schedule
import Verif.Proofs.Vec
import Mathlib.Algebra.BigOperators.Group.Finset.Basic
import Mathlib.Data.Finset.Card

/-! The transition system of `ProveLiability`. -/

namespace PoL.Sched

variable {R : Type}

/-- Past the deferred call. -/
def PPc.fin : PPc R → Bool
  | .dying => true
  | .gone => true
  | _ => false

/-- Between `Lock` and `Unlock`. -/
def PPc.holds : PPc R → Bool
  | .write _ => true
  | .unlock => true
  | _ => false

/-- Nothing panics. -/
def Prover.Good (p : Prover R) : Prop :=
  (∀ i < p.n, (p.result i).isSome) ∧ (∀ i < p.n, p.before i = true) ∧ (∀ i < p.n, p.after i = true) ∧ p.rest = true

def PGOk (p : Prover R) (s : PSt R) (i : ℕ) : Prop :=
  match s.pcs i with
  | .idle => s.slots i = none
  | .start => s.slots i = none
  | .lock r => p.result i = some r ∧ s.slots i = none
  | .write r => p.result i = some r ∧ s.slots i = none
  | .unlock => (p.result i).isSome ∧ s.slots i = p.result i
  | .done true => p.result i = none ∧ s.slots i = none
  | .dying => p.result i = none ∧ s.slots i = none
  | .done false => (p.result i).isSome ∧ s.slots i = p.result i
  | .gone => (p.result i).isSome ∧ s.slots i = p.result i

def PMOk (p : Prover R) (k : ℕ) (s : PSt R) : Prop :=
  match s.main with
  | .round i => k = i ∧ (∀ j < i, p.before j = true) ∧ ∀ j < i, p.after j = true
  | .after i => k = i + 1 ∧ (∀ j < i + 1, p.before j = true) ∧ ∀ j < i, p.after j = true
  | .rest => k = p.n ∧ (∀ j < p.n, p.before j = true) ∧ ∀ j < p.n, p.after j = true
  | .wait => k = p.n ∧ (∀ j < p.n, p.before j = true) ∧ (∀ j < p.n, p.after j = true) ∧ p.rest = true
  | .returned => k = p.n ∧ (∀ j < p.n, p.before j = true) ∧ (∀ j < p.n, p.after j = true) ∧ p.rest = true ∧
      ∀ j < p.n, (s.pcs j).fin = true

structure PInv (p : Prover R) (k : ℕ) (s : PSt R) : Prop where
  bound : k ≤ p.n
  started : ∀ i, (s.pcs i = .idle ↔ k ≤ i)
  wg : s.wg + ((Finset.range p.n).filter fun i => (s.pcs i).fin = true).card = p.n
  held : s.locked = true ↔ ∃ i, (s.pcs i).holds = true
  one : ∀ i j, (s.pcs i).holds = true → (s.pcs j).holds = true → i = j
  gos : ∀ i, PGOk p s i
  main : PMOk p k s
  crash : s.crashed = true → ¬ p.Good

theorem pinv_init (p : Prover R) : PInv p 0 p.init where
  bound := Nat.zero_le _
  started := by intro i; simp [Prover.init]
  wg := by simp [Prover.init, PPc.fin]
  held := by simp [Prover.init, PPc.holds]
  one := by intro i j h; simp [Prover.init, PPc.holds] at h
  gos := by intro i; simp [PGOk, Prover.init]
  main := by simp [PMOk, Prover.init]
  crash := by intro h; simp [Prover.init] at h

theorem pinv_main {p : Prover R} {k : ℕ} {s s' : PSt R} (h : PInv p k s) (hs : p.mainStep s = some s') :
    ∃ k', PInv p k' s' := by
  obtain ⟨main, pcs, slots, locked, wg, crashed⟩ := s
  cases crashed with
  | true => simp [Prover.mainStep] at hs
  | false =>
  have hcrash : ¬ p.Good → PInv p k ⟨main, pcs, slots, locked, wg, true⟩ := fun hg => { h with crash := fun _ => hg }
  have hgo : ∀ m, PMOk p k ⟨m, pcs, slots, locked, wg, false⟩ → PInv p k ⟨m, pcs, slots, locked, wg, false⟩ :=
    fun m hm => { h with main := hm }
  unfold Prover.mainStep at hs
  simp only [Bool.false_eq_true, if_false] at hs
  have hmain := h.main
  unfold PMOk at hmain
  cases main with
  | round i =>
    dsimp only at hs hmain
    obtain ⟨rfl, hb, ha⟩ := hmain
    by_cases hi : k < p.n
    · rw [if_pos hi] at hs
      by_cases hbk : p.before k = true
      · rw [if_pos hbk] at hs
        cases hs
        have hidle : pcs k = .idle := (h.started k).2 le_rfl
        have hfin : ∀ i, (Function.update pcs k .start i).fin = (pcs i).fin := by
          intro i
          by_cases hik : i = k
          · rw [hik, Function.update_self, hidle]; rfl
          · rw [Function.update_of_ne hik]
        have hholds : ∀ i, (Function.update pcs k .start i).holds = (pcs i).holds := by
          intro i
          by_cases hik : i = k
          · rw [hik, Function.update_self, hidle]; rfl
          · rw [Function.update_of_ne hik]
        refine ⟨k + 1, hi, ?_, ?_, ?_, ?_, ?_, ?_, ?_⟩
        · intro i
          dsimp only
          by_cases hik : i = k
          · rw [hik, Function.update_self]; simp
          · have := h.started i
            dsimp only at this
            rw [Function.update_of_ne hik, this]; omega
        · have := h.wg
          dsimp only at this ⊢
          simp only [hfin]
          exact this
        · have := h.held
          dsimp only at this ⊢
          simp only [hholds]
          exact this
        · intro i j
          have := h.one i j
          dsimp only at this ⊢
          simp only [hholds]
          exact this
        · intro i
          have := h.gos i
          unfold PGOk at this ⊢
          dsimp only at this ⊢
          by_cases hik : i = k
          · subst hik
            rw [Function.update_self]
            rw [hidle] at this
            exact this
          · rw [Function.update_of_ne hik]
            exact this
        · unfold PMOk
          dsimp only
          refine ⟨rfl, fun j hj => ?_, ha⟩
          rcases Nat.lt_succ_iff_lt_or_eq.1 hj with hj | rfl
          · exact hb j hj
          · exact hbk
        · intro hc; simp at hc
      · rw [if_neg hbk] at hs
        cases hs
        exact ⟨k, hcrash (fun hg => hbk (hg.2.1 k hi))⟩
    · rw [if_neg hi] at hs
      cases hs
      have : k = p.n := le_antisymm h.bound (by omega)
      refine ⟨k, hgo _ ?_⟩
      unfold PMOk
      dsimp only
      exact ⟨this, fun j hj => hb j (by omega), fun j hj => ha j (by omega)⟩
  | after i =>
    dsimp only at hs hmain
    obtain ⟨rfl, hb, ha⟩ := hmain
    have hbd := h.bound
    by_cases hc : p.after i = true
    · rw [if_pos hc] at hs
      cases hs
      refine ⟨_, hgo _ ?_⟩
      unfold PMOk
      dsimp only
      refine ⟨rfl, hb, fun j hj => ?_⟩
      rcases Nat.lt_succ_iff_lt_or_eq.1 hj with hj | rfl
      · exact ha j hj
      · exact hc
    · rw [if_neg hc] at hs
      cases hs
      exact ⟨_, hcrash (fun hg => hc (hg.2.2.1 i (by omega)))⟩
  | rest =>
    dsimp only at hs hmain
    obtain ⟨rfl, hb, ha⟩ := hmain
    by_cases hc : p.rest = true
    · rw [if_pos hc] at hs
      cases hs
      refine ⟨_, hgo _ ?_⟩
      unfold PMOk
      dsimp only
      exact ⟨rfl, hb, ha, hc⟩
    · rw [if_neg hc] at hs
      cases hs
      exact ⟨_, hcrash (fun hg => hc hg.2.2.2)⟩
  | wait =>
    dsimp only at hs hmain
    obtain ⟨rfl, hb, ha, hr⟩ := hmain
    by_cases hw : wg = 0
    · rw [if_pos hw] at hs
      cases hs
      refine ⟨_, hgo _ ?_⟩
      unfold PMOk
      dsimp only
      refine ⟨rfl, hb, ha, hr, ?_⟩
      have hcard := h.wg
      dsimp only at hcard
      rw [hw, zero_add] at hcard
      have := Finset.filter_card_eq (s := Finset.range p.n) (p := fun i => (pcs i).fin = true) (by rw [hcard]; simp)
      intro j hj
      exact this j (by simpa using hj)
    · rw [if_neg hw] at hs
      simp at hs
  | returned => simp at hs

/-- A step of goroutine `i` to `pc`. -/
theorem PInv.move {p : Prover R} {k : ℕ} {main : PMain} {pcs : ℕ → PPc R} {slots : ℕ → Option R} {locked : Bool} {wg : ℕ}
    (h : PInv p k ⟨main, pcs, slots, locked, wg, false⟩) {i : ℕ} (hi : i < k) (hnf : (pcs i).fin = false) (pc : PPc R)
    (hpc : pc ≠ .idle) (slots' : ℕ → Option R) (hsl : ∀ j, j ≠ i → slots' j = slots j) (locked' : Bool) (wg' : ℕ)
    (hwg : wg' + (if pc.fin then 1 else 0) = wg)
    (hheld : locked' = true ↔ pc.holds = true ∨ ∃ j, j ≠ i ∧ (pcs j).holds = true)
    (hone : pc.holds = true → ∀ j, j ≠ i → (pcs j).holds = false)
    (hok : PGOk p ⟨main, Function.update pcs i pc, slots', locked', wg', false⟩ i) :
    PInv p k ⟨main, Function.update pcs i pc, slots', locked', wg', false⟩ := by
  have hin : i < p.n := lt_of_lt_of_le hi h.bound
  constructor
  · exact h.bound
  · intro j
    dsimp only
    have := h.started j
    dsimp only at this
    by_cases hj : j = i
    · rw [hj, Function.update_self]
      constructor
      · intro hc; exact absurd hc hpc
      · intro hc; omega
    · rw [Function.update_of_ne hj, this]
  · have hw := h.wg
    dsimp only at hw ⊢
    cases hf : pc.fin with
    | true =>
      have hcard : ((Finset.range p.n).filter fun j => (Function.update pcs i pc j).fin = true)
          = insert i ((Finset.range p.n).filter fun j => (pcs j).fin = true) := by
        ext j
        simp only [Finset.mem_filter, Finset.mem_range, Finset.mem_insert]
        by_cases hj : j = i
        · subst hj
          rw [Function.update_self]
          simp [hin, hf]
        · rw [Function.update_of_ne hj]
          simp [hj]
      rw [hcard, Finset.card_insert_of_notMem (by simp [hnf])]
      rw [hf] at hwg
      simp only [if_true] at hwg
      omega
    | false =>
      have hcard : ((Finset.range p.n).filter fun j => (Function.update pcs i pc j).fin = true)
          = (Finset.range p.n).filter fun j => (pcs j).fin = true := by
        ext j
        simp only [Finset.mem_filter, Finset.mem_range]
        by_cases hj : j = i
        · subst hj
          rw [Function.update_self, hf, hnf]
        · rw [Function.update_of_ne hj]
      rw [hcard]
      rw [hf] at hwg
      simp only [Bool.false_eq_true, if_false] at hwg
      omega
  · dsimp only
    rw [hheld]
    constructor
    · rintro (h1 | ⟨j, hj, h1⟩)
      · exact ⟨i, by rw [Function.update_self]; exact h1⟩
      · exact ⟨j, by rw [Function.update_of_ne hj]; exact h1⟩
    · rintro ⟨j, h1⟩
      by_cases hj : j = i
      · rw [hj, Function.update_self] at h1
        exact .inl h1
      · rw [Function.update_of_ne hj] at h1
        exact .inr ⟨j, hj, h1⟩
  · intro j l
    dsimp only
    have := h.one j l
    dsimp only at this
    by_cases hj : j = i
    · by_cases hl : l = i
      · intro _ _; rw [hj, hl]
      · rw [hj, Function.update_self, Function.update_of_ne hl]
        intro h1 h2
        rw [hone h1 l hl] at h2
        simp at h2
    · by_cases hl : l = i
      · rw [hl, Function.update_self, Function.update_of_ne hj]
        intro h1 h2
        rw [hone h2 j hj] at h1
        simp at h1
      · rw [Function.update_of_ne hj, Function.update_of_ne hl]
        exact this
  · intro j
    by_cases hj : j = i
    · rw [hj]; exact hok
    · have := h.gos j
      unfold PGOk at this ⊢
      dsimp only at this ⊢
      rw [Function.update_of_ne hj, hsl j hj]
      exact this
  · have hm := h.main
    unfold PMOk at hm ⊢
    dsimp only at hm ⊢
    cases main with
    | returned =>
      dsimp only at hm ⊢
      obtain ⟨-, -, -, -, hm⟩ := hm
      have := hm i hin
      rw [hnf] at this
      simp at this
    | _ => exact hm
  · intro hc; simp at hc

theorem pinv_go {p : Prover R} {k : ℕ} {s s' : PSt R} (h : PInv p k s) (i : ℕ) (hs : p.goStep i s = some s') :
    PInv p k s' := by
  obtain ⟨main, pcs, slots, locked, wg, crashed⟩ := s
  cases crashed with
  | true => simp [Prover.goStep] at hs
  | false =>
  have hcrash : ¬ p.Good → PInv p k ⟨main, pcs, slots, locked, wg, true⟩ := fun hg => { h with crash := fun _ => hg }
  unfold Prover.goStep at hs
  simp only [Bool.false_eq_true, if_false] at hs
  have hg := h.gos i
  have hheld := h.held
  have hone := h.one
  unfold PGOk at hg
  dsimp only at hg hheld hone
  have hid : pcs i ≠ .idle → i < k := by
    intro hid
    by_contra hc
    exact hid ((h.started i).2 (by omega))
  have hsame : ∀ j, j ≠ i → slots j = slots j := fun _ _ => rfl
  -- the lock is held by someone else iff it is held, when `i` does not hold it
  have hother : (pcs i).holds = false → (locked = true ↔ ∃ j, j ≠ i ∧ (pcs j).holds = true) := by
    intro hn
    rw [hheld]
    constructor
    · rintro ⟨j, hj⟩
      refine ⟨j, ?_, hj⟩
      rintro rfl
      rw [hn] at hj
      simp at hj
    · rintro ⟨j, -, hj⟩; exact ⟨j, hj⟩
  cases hpc : pcs i with
  | idle => simp [hpc] at hs
  | start =>
    have hik := hid (by rw [hpc]; simp)
    simp only [hpc] at hs hg
    have ho := hother (by rw [hpc]; rfl)
    cases hr : p.result i with
    | none =>
      rw [hr] at hs
      cases hs
      exact h.move hik (by rw [hpc]; rfl) _ (by simp) slots hsame locked wg (by simp [PPc.fin])
        (by simpa [PPc.holds] using ho) (by simp [PPc.holds]) (by simp [PGOk, hr, hg])
    | some r =>
      rw [hr] at hs
      cases hs
      exact h.move hik (by rw [hpc]; rfl) _ (by simp) slots hsame locked wg (by simp [PPc.fin])
        (by simpa [PPc.holds] using ho) (by simp [PPc.holds]) (by simp [PGOk, hr, hg])
  | lock r =>
    have hik := hid (by rw [hpc]; simp)
    simp only [hpc] at hs hg
    have ho := hother (by rw [hpc]; rfl)
    by_cases hl : locked = true
    · rw [if_pos hl] at hs; simp at hs
    · rw [if_neg hl] at hs
      cases hs
      refine h.move hik (by rw [hpc]; rfl) _ (by simp) slots hsame true wg (by simp [PPc.fin])
        (by simp [PPc.holds]) ?_ (by simp [PGOk, hg])
      intro _ j hj
      by_contra hc
      exact hl (ho.2 ⟨j, hj, by simpa using hc⟩)
  | write r =>
    have hik := hid (by rw [hpc]; simp)
    simp only [hpc] at hs hg
    cases hs
    have hh : (pcs i).holds = true := by rw [hpc]; rfl
    refine h.move hik (by rw [hpc]; rfl) .unlock (by simp) (Function.update slots i (some r))
      (fun j hj => Function.update_of_ne hj _ _) locked wg (by simp [PPc.fin]) ?_ ?_ ?_
    · simp only [PPc.holds, true_or, iff_true]
      exact hheld.2 ⟨i, hh⟩
    · intro _ j hj
      by_contra hc
      exact hj (hone j i (by simpa using hc) hh)
    · simp [PGOk, hg.1]
  | unlock =>
    have hik := hid (by rw [hpc]; simp)
    simp only [hpc] at hs hg
    cases hs
    have hh : (pcs i).holds = true := by rw [hpc]; rfl
    refine h.move hik (by rw [hpc]; rfl) (.done false) (by simp) slots hsame false wg (by simp [PPc.fin]) ?_
      (by simp [PPc.holds]) ?_
    · simp only [PPc.holds, Bool.false_eq_true, false_or, false_iff, not_exists, not_and]
      intro j hj hc
      exact hj (hone j i hc hh)
    · simp only [PGOk, Function.update_self]; exact hg
  | done b =>
    have hik := hid (by rw [hpc]; simp)
    simp only [hpc] at hs hg
    have ho := hother (by rw [hpc]; rfl)
    have hin : i < p.n := lt_of_lt_of_le hik h.bound
    have hw := h.wg
    dsimp only at hw
    by_cases hw0 : wg = 0
    · exfalso
      rw [hw0, zero_add] at hw
      have := Finset.filter_card_eq (s := Finset.range p.n) (p := fun i => (pcs i).fin = true) (by rw [hw]; simp)
        i (by simpa using hin)
      rw [hpc] at this
      simp [PPc.fin] at this
    · rw [if_neg hw0] at hs
      cases hs
      cases b with
      | true =>
        refine h.move hik (by rw [hpc]; rfl) _ (by simp) slots hsame locked (wg - 1) ?_
          (by simpa [PPc.holds] using ho) (by simp [PPc.holds]) ?_
        · simp only [PPc.fin, if_true]; omega
        · simp only [PGOk, Function.update_self, if_true] at hg ⊢; exact hg
      | false =>
        refine h.move hik (by rw [hpc]; rfl) _ (by simp) slots hsame locked (wg - 1) ?_
          (by simpa [PPc.holds] using ho) (by simp [PPc.holds]) ?_
        · simp only [PPc.fin, Bool.false_eq_true, if_false, if_true]; omega
        · simp only [PGOk, Function.update_self, Bool.false_eq_true, if_false] at hg ⊢; exact hg
  | dying =>
    have hik := hid (by rw [hpc]; simp)
    simp only [hpc] at hs hg
    cases hs
    apply hcrash
    intro hgood
    have := hgood.1 i (lt_of_lt_of_le hik h.bound)
    rw [hg.1] at this
    simp at this
  | gone => simp [hpc] at hs

theorem pinv_steps {p : Prover R} {m : ℕ} {s s' : PSt R} (h : p.Steps m s s') : (∃ k, PInv p k s) → ∃ k, PInv p k s' := by
  induction h with
  | refl => exact id
  | tail h1 h2 ih =>
    intro h0
    obtain ⟨k, hk⟩ := ih h0
    rcases h2 with h2 | ⟨i, -, h2⟩
    · exact pinv_main hk h2
    · exact ⟨k, pinv_go hk i h2⟩

theorem Prover.Steps.trans {p : Prover R} {k m : ℕ} {s t u : PSt R} (h1 : p.Steps k s t) (h2 : p.Steps m t u) :
    p.Steps (k + m) s u := by
  induction h2 with
  | refl => exact h1
  | tail _ h3 ih => exact (ih h1).tail h3

/-! ## Termination -/

def pmWeight (n : ℕ) : PMain → ℕ
  | .round i => 9 * (n - i) + 3
  | .after i => 9 * (n - (i + 1)) + 4
  | .rest => 2
  | .wait => 1
  | .returned => 0

def pgWeight : PPc R → ℕ
  | .idle => 7
  | .start => 6
  | .lock _ => 5
  | .write _ => 4
  | .unlock => 3
  | .done _ => 2
  | .dying => 1
  | .gone => 0

def pWeight (p : Prover R) (s : PSt R) : ℕ :=
  pmWeight p.n s.main + ∑ i ∈ Finset.range p.n, pgWeight (s.pcs i) + if s.crashed then 0 else 1

theorem psum_update {n : ℕ} (pcs : ℕ → PPc R) {i : ℕ} (hi : i < n) (pc : PPc R) :
    ∑ j ∈ Finset.range n, pgWeight (Function.update pcs i pc j) + pgWeight (pcs i)
      = ∑ j ∈ Finset.range n, pgWeight (pcs j) + pgWeight pc := by
  have hm : i ∈ Finset.range n := by simpa using hi
  rw [← Finset.add_sum_erase _ _ hm, ← Finset.add_sum_erase (Finset.range n) (fun j => pgWeight (pcs j)) hm]
  have : ∑ j ∈ (Finset.range n).erase i, pgWeight (Function.update pcs i pc j)
      = ∑ j ∈ (Finset.range n).erase i, pgWeight (pcs j) := by
    apply Finset.sum_congr rfl
    intro j hj
    rw [Function.update_of_ne (Finset.ne_of_mem_erase hj)]
  rw [this, Function.update_self]
  omega

theorem pWeight_main {p : Prover R} {s s' : PSt R} (h : p.mainStep s = some s') : pWeight p s' < pWeight p s := by
  obtain ⟨main, pcs, slots, locked, wg, crashed⟩ := s
  cases crashed with
  | true => simp [Prover.mainStep] at h
  | false =>
    unfold Prover.mainStep at h
    simp only [Bool.false_eq_true, if_false] at h
    cases main with
    | round i =>
      dsimp only at h
      by_cases hi : i < p.n
      · rw [if_pos hi] at h
        split at h
        · cases h
          have h1 := psum_update pcs hi .start
          simp only [pWeight, pmWeight, pgWeight, Bool.false_eq_true, if_false] at h1 ⊢
          omega
        · cases h; simp [pWeight]
      · rw [if_neg hi] at h; cases h; simp [pWeight, pmWeight]
    | after i => dsimp only at h; split at h <;> cases h <;> simp [pWeight, pmWeight]
    | rest => dsimp only at h; split at h <;> cases h <;> simp [pWeight, pmWeight]
    | wait => dsimp only at h; split at h <;> cases h <;> simp [pWeight, pmWeight]
    | returned => simp at h

theorem pWeight_go {p : Prover R} {s s' : PSt R} {i : ℕ} (hi : i < p.n) (h : p.goStep i s = some s') :
    pWeight p s' < pWeight p s := by
  obtain ⟨main, pcs, slots, locked, wg, crashed⟩ := s
  cases crashed with
  | true => simp [Prover.goStep] at h
  | false =>
    have hmove : ∀ (pc : PPc R) (sl : ℕ → Option R) (l : Bool) (w : ℕ), pgWeight pc < pgWeight (pcs i) →
        pWeight p ⟨main, Function.update pcs i pc, sl, l, w, false⟩ < pWeight p ⟨main, pcs, slots, locked, wg, false⟩ := by
      intro pc sl l w hlt
      have h1 := psum_update pcs hi pc
      simp only [pWeight, Bool.false_eq_true, if_false]
      omega
    unfold Prover.goStep at h
    simp only [Bool.false_eq_true, if_false] at h
    cases hpc : pcs i with
    | idle => simp [hpc] at h
    | start =>
      simp only [hpc] at h
      split at h <;> cases h <;> apply hmove <;> rw [hpc] <;> simp [pgWeight]
    | lock r =>
      simp only [hpc] at h
      split at h
      · simp at h
      · cases h; apply hmove; rw [hpc]; simp [pgWeight]
    | write r => simp only [hpc] at h; cases h; apply hmove; rw [hpc]; simp [pgWeight]
    | unlock => simp only [hpc] at h; cases h; apply hmove; rw [hpc]; simp [pgWeight]
    | done b =>
      simp only [hpc] at h
      by_cases hw : wg = 0
      · rw [if_pos hw] at h; cases h; simp [pWeight]
      · rw [if_neg hw] at h; cases h; apply hmove; rw [hpc]; cases b <;> simp [pgWeight]
    | dying => simp only [hpc] at h; cases h; simp [pWeight]
    | gone => simp [hpc] at h

theorem pWeight_steps {p : Prover R} {k : ℕ} {s s' : PSt R} (h : p.Steps k s s') :
    pWeight p s' + k ≤ pWeight p s := by
  induction h with
  | refl => simp
  | tail _ h2 ih =>
    rcases h2 with h2 | ⟨i, hi, h2⟩
    · have := pWeight_main h2; omega
    · have := pWeight_go hi h2; omega

theorem pWeight_init (p : Prover R) : pWeight p p.init = 16 * p.n + 4 := by
  simp only [pWeight, Prover.init, pmWeight, pgWeight, Finset.sum_const, Finset.card_range, smul_eq_mul]
  simp; omega

theorem pexists_final {p : Prover R} (s : PSt R) : ∃ k t, p.Steps k s t ∧ ∀ u, ¬ p.Step t u := by
  obtain ⟨w, hw⟩ : ∃ w, w = pWeight p s := ⟨_, rfl⟩
  induction w using Nat.strong_induction_on generalizing s with
  | _ w ih =>
    by_cases h : ∃ u, p.Step s u
    · obtain ⟨u, hu⟩ := h
      have h1 : p.Steps 1 s u := (Prover.Steps.refl s).tail hu
      have h2 := pWeight_steps h1
      obtain ⟨k, t, ht, hst⟩ := ih (pWeight p u) (by omega) u rfl
      exact ⟨_, t, h1.trans ht, hst⟩
    · push Not at h
      exact ⟨0, s, .refl s, h⟩

/-! ## Progress -/

theorem pprogress {p : Prover R} {k : ℕ} {s : PSt R} (h : PInv p k s) (hcr : s.crashed = false)
    (hstuck : ∀ s', ¬ p.Step s s') : s.main = .returned ∧ ∀ i, s.pcs i = .idle ∨ s.pcs i = .gone := by
  have hlt : ∀ i, s.pcs i ≠ .idle → i < p.n := by
    intro i h1
    by_contra hc
    exact h1 ((h.started i).2 (le_trans h.bound (by omega)))
  have hstep : ∀ i, s.pcs i ≠ .idle → p.goStep i s = none := by
    intro i hi
    by_contra hc
    obtain ⟨s', hs'⟩ := Option.ne_none_iff_exists'.1 hc
    exact hstuck s' (.inr ⟨i, hlt i hi, hs'⟩)
  -- nobody holds the lock
  have hfree : s.locked = false := by
    by_contra hc
    obtain ⟨i, hi⟩ := h.held.1 (by simpa using hc)
    have hne : s.pcs i ≠ .idle := by intro he; rw [he] at hi; simp [PPc.holds] at hi
    have := hstep i hne
    unfold Prover.goStep at this
    rw [hcr] at this
    simp only [Bool.false_eq_true, if_false] at this
    cases hpc : s.pcs i with
    | write r => rw [hpc] at this; simp at this
    | unlock => rw [hpc] at this; simp at this
    | _ => rw [hpc] at hi; simp [PPc.holds] at hi
  have hgo : ∀ i, s.pcs i = .idle ∨ s.pcs i = .gone := by
    intro i
    by_contra hc
    push Not at hc
    obtain ⟨h1, h2⟩ := hc
    have := hstep i h1
    unfold Prover.goStep at this
    rw [hcr] at this
    simp only [Bool.false_eq_true, if_false] at this
    cases hpc : s.pcs i with
    | idle => exact h1 hpc
    | gone => exact h2 hpc
    | start => rw [hpc] at this; dsimp only at this; split at this <;> simp at this
    | lock r => rw [hpc] at this; dsimp only at this; rw [hfree] at this; simp at this
    | done b => rw [hpc] at this; dsimp only at this; split at this <;> simp at this
    | _ => rw [hpc] at this; simp at this
  refine ⟨?_, hgo⟩
  by_contra hc
  have hex : ∃ s', p.mainStep s = some s' := by
    have hm := h.main
    unfold Prover.mainStep
    unfold PMOk at hm
    rw [hcr]
    simp only [Bool.false_eq_true, if_false]
    cases hmm : s.main with
    | round i =>
      dsimp only
      split
      · split <;> exact ⟨_, rfl⟩
      · exact ⟨_, rfl⟩
    | after i => dsimp only; split <;> exact ⟨_, rfl⟩
    | rest => dsimp only; split <;> exact ⟨_, rfl⟩
    | wait =>
      simp only [hmm] at hm
      have hall : ∀ i < p.n, (s.pcs i).fin = true := by
        intro i hi
        rcases hgo i with h1 | h1
        · have := (h.started i).1 h1
          omega
        · rw [h1]; rfl
      have hw := h.wg
      rw [Finset.filter_true_of_mem (by simpa using hall), Finset.card_range] at hw
      dsimp only
      rw [if_pos (by omega)]
      exact ⟨_, rfl⟩
    | returned => exact absurd hmm hc
  obtain ⟨s', hs'⟩ := hex
  exact hstuck s' (.inl hs')

/-! ## A run that returns before a panic ends the process -/

theorem pstep_go {p : Prover R} {i : ℕ} (hi : i < p.n) {s s' t : PSt R} (h : p.goStep i s = some s')
    (ht : ∃ k, p.Steps k s' t) : ∃ k, p.Steps k s t := by
  obtain ⟨k, hk⟩ := ht
  exact ⟨_, ((Prover.Steps.refl s).tail (.inr ⟨i, hi, h⟩)).trans hk⟩

theorem prun_job {p : Prover R} {i : ℕ} (hi : i < p.n) (main : PMain) (pcs : ℕ → PPc R) (hpc : pcs i = .start)
    (slots : ℕ → Option R) (wg : ℕ) : ∃ k pc slots',
      p.Steps k ⟨main, pcs, slots, false, wg + 1, false⟩ ⟨main, Function.update pcs i pc, slots', false, wg, false⟩ := by
  cases hr : p.result i with
  | none =>
    have h0 : p.goStep i ⟨main, pcs, slots, false, wg + 1, false⟩
        = some ⟨main, Function.update pcs i (.done true), slots, false, wg + 1, false⟩ := by
      simp [Prover.goStep, hpc, hr, PSt.goto]
    have h1 : p.goStep i ⟨main, Function.update pcs i (.done true), slots, false, wg + 1, false⟩
        = some ⟨main, Function.update pcs i .dying, slots, false, wg, false⟩ := by
      simp [Prover.goStep, PSt.goto]
    obtain ⟨k, hk⟩ := pstep_go hi h0 (pstep_go hi h1 ⟨0, .refl _⟩)
    exact ⟨k, _, _, hk⟩
  | some r =>
    have h0 : p.goStep i ⟨main, pcs, slots, false, wg + 1, false⟩
        = some ⟨main, Function.update pcs i (.lock r), slots, false, wg + 1, false⟩ := by
      simp [Prover.goStep, hpc, hr, PSt.goto]
    have h1 : p.goStep i ⟨main, Function.update pcs i (.lock r), slots, false, wg + 1, false⟩
        = some ⟨main, Function.update pcs i (.write r), slots, true, wg + 1, false⟩ := by
      simp [Prover.goStep, PSt.goto]
    have h2 : p.goStep i ⟨main, Function.update pcs i (.write r), slots, true, wg + 1, false⟩
        = some ⟨main, Function.update pcs i .unlock, Function.update slots i (some r), true, wg + 1, false⟩ := by
      simp [Prover.goStep, PSt.goto]
    have h3 : p.goStep i ⟨main, Function.update pcs i .unlock, Function.update slots i (some r), true, wg + 1, false⟩
        = some ⟨main, Function.update pcs i (.done false), Function.update slots i (some r), false, wg + 1, false⟩ := by
      simp [Prover.goStep, PSt.goto]
    have h4 : p.goStep i ⟨main, Function.update pcs i (.done false), Function.update slots i (some r), false, wg + 1, false⟩
        = some ⟨main, Function.update pcs i .gone, Function.update slots i (some r), false, wg, false⟩ := by
      simp [Prover.goStep, PSt.goto]
    obtain ⟨k, hk⟩ := pstep_go hi h0 (pstep_go hi h1 (pstep_go hi h2 (pstep_go hi h3 (pstep_go hi h4 ⟨0, .refl _⟩))))
    exact ⟨k, _, _, hk⟩

/-- If the main goroutine does not panic, there is a run in which it returns, also if other goroutines panic. -/
theorem prun_returned {p : Prover R} (hb : ∀ i < p.n, p.before i = true) (ha : ∀ i < p.n, p.after i = true)
    (hr : p.rest = true) : ∃ k s, p.Steps k p.init s ∧ s.main = .returned := by
  have hloop : ∀ m ≤ p.n, ∃ k pcs slots, p.Steps k p.init ⟨.round m, pcs, slots, false, p.n - m, false⟩ := by
    intro m
    induction m with
    | zero => intro _; exact ⟨0, _, _, .refl _⟩
    | succ m ih =>
      intro hm
      obtain ⟨k, pcs, c, hk⟩ := ih (by omega)
      have h1 : p.mainStep ⟨.round m, pcs, c, false, p.n - m, false⟩
          = some ⟨.after m, Function.update pcs m .start, c, false, p.n - (m + 1) + 1, false⟩ := by
        have : p.n - (m + 1) + 1 = p.n - m := by omega
        rw [this]
        have hm' : m < p.n := by omega
        simp [Prover.mainStep, hm', hb m hm']
      obtain ⟨k2, pc, c', hk2⟩ := prun_job (show m < p.n by omega) (.after m) (Function.update pcs m .start)
        (Function.update_self _ _ _) c (p.n - (m + 1))
      rw [Function.update_idem] at hk2
      have h2 : p.mainStep ⟨.after m, Function.update pcs m pc, c', false, p.n - (m + 1), false⟩
          = some ⟨.round (m + 1), Function.update pcs m pc, c', false, p.n - (m + 1), false⟩ := by
        simp [Prover.mainStep, ha m (by omega)]
      exact ⟨_, _, _, ((hk.tail (.inl h1)).trans hk2).tail (.inl h2)⟩
  obtain ⟨k, pcs, c, hk⟩ := hloop p.n le_rfl
  rw [Nat.sub_self] at hk
  have h1 : p.mainStep ⟨.round p.n, pcs, c, false, 0, false⟩ = some ⟨.rest, pcs, c, false, 0, false⟩ := by
    simp [Prover.mainStep]
  have h2 : p.mainStep ⟨.rest, pcs, c, false, 0, false⟩ = some ⟨.wait, pcs, c, false, 0, false⟩ := by
    simp [Prover.mainStep, hr]
  have h3 : p.mainStep ⟨.wait, pcs, c, false, 0, false⟩ = some ⟨.returned, pcs, c, false, 0, false⟩ := by
    simp [Prover.mainStep]
  exact ⟨_, _, ((hk.tail (.inl h1)).tail (.inl h2)).tail (.inl h3), rfl⟩

end PoL.Sched
