import Verif.Model.ManyVerify
import Verif.Proofs.ScheduleLive

/-! Several calls of `Verify` at once. -/

namespace PoL.Sched

variable {C P : Type}

/-- What a step does to the inner-product proofs keeps what another call wrote. -/
theorem step_kept {p q : Prog C P} (hpq : p.Shares q) {k : ℕ} {s s' : St C P} (h : Inv q k s) (hs : q.Step s s') :
    p.Kept s.cells s'.cells := by
  rcases hs with hs | ⟨i, hi, hs⟩
  · unfold Prog.mainStep at hs
    split at hs
    · simp at hs
    · split at hs <;> repeat' split at hs
      all_goals first
        | (simp at hs; done)
        | (simp only [Option.some.injEq] at hs; subst hs; exact Prog.Kept.refl _ _)
  · have hg := h.gos i
    unfold GOk at hg
    unfold Prog.goStep at hs
    split at hs
    · simp at hs
    · split at hs
      · simp at hs
      · cases hpc : s.pcs i with
        | writeC w =>
          simp only [hpc, Option.some.injEq] at hs hg
          subst hs
          exact hpq.kept hi hg _ _ (.inl ⟨rfl, rfl⟩)
        | writeP w =>
          simp only [hpc, Option.some.injEq] at hs hg
          subst hs
          exact hpq.kept hi hg.1 _ _ (.inr ⟨rfl, rfl⟩)
        | idle => simp [hpc] at hs
        | gone => simp [hpc] at hs
        | _ =>
          simp only [hpc] at hs
          repeat' split at hs
          all_goals
            simp only [Option.some.injEq] at hs
            subst hs
            exact Prog.Kept.refl _ _

theorem Inv.keep {p : Prog C P} {k : ℕ} {s : St C P} (h : Inv p k s) {cells : ℕ → C × P} (hk : p.Kept s.cells cells) :
    Inv p k { s with cells := cells } where
  bound := h.bound
  jobs := h.jobs
  checks := h.checks
  idle := h.idle
  started := h.started
  err := h.err
  wg := h.wg
  gos := by
    intro j
    by_cases hjk : j < k
    · exact (h.gos j).keep (lt_of_lt_of_le hjk h.bound) hk
    · unfold GOk
      simp only [(h.started j).2 (by omega)]
  main := h.main
  crash := h.crash

theorem Inv.uncrash {p : Prog C P} {k : ℕ} {s : St C P} (h : Inv p k s) : Inv p k { s with crashed := false } :=
  { h with crash := fun hc => by simp at hc }

/-- The invariant of all calls: each call satisfies its own, with the inner-product proofs of all; a panic comes from a call that
panics when it is alone. -/
structure ManyInv (n : ℕ) (ps : ℕ → Prog C P) (S : Many C P) : Prop where
  each : ∀ c < n, ∃ k, Inv (ps c) k { S.calls c with cells := S.cells, crashed := false }
  crash : S.crashed = true → ∃ c < n, (ps c).seq = none

theorem manyInv_init (n : ℕ) (ps : ℕ → Prog C P) (cells : ℕ → C × P) : ManyInv n ps (manyInit ps cells) where
  each := fun c _ => ⟨0, inv_init _ _⟩
  crash := fun h => by simp [manyInit] at h

theorem step_not_crashed {p : Prog C P} {s s' : St C P} (h : p.Step s s') : s.crashed = false := by
  by_contra hc
  have hc : s.crashed = true := by simpa using hc
  rcases h with h | ⟨i, -, h⟩
  · simp [Prog.mainStep, hc] at h
  · simp [Prog.goStep, hc] at h

theorem manyInv_step {n : ℕ} {ps : ℕ → Prog C P} (hsh : ∀ c < n, ∀ c' < n, (ps c).Shares (ps c')) {S S' : Many C P}
    (h : ManyInv n ps S) (hs : ManyStep n ps S S') : ManyInv n ps S' := by
  obtain ⟨c, hc, s, hst, rfl⟩ := hs
  have hcr : S.crashed = false := step_not_crashed hst
  obtain ⟨k, hk⟩ := h.each c hc
  have hview : S.view c = { S.calls c with cells := S.cells, crashed := false } := by
    unfold Many.view
    rw [hcr]
  rw [hview] at hst
  have hnew : ∃ k', Inv (ps c) k' s := by
    rcases hst with h1 | ⟨i, -, h1⟩
    · exact inv_main hk h1
    · exact ⟨k, inv_go (hsh c hc c hc) hk i h1⟩
  obtain ⟨k', hk'⟩ := hnew
  constructor
  · intro c' hc'
    by_cases hcc : c' = c
    · subst hcc
      refine ⟨k', ?_⟩
      simp only [Many.put, Function.update_self]
      exact hk'.uncrash
    · obtain ⟨k2, hk2⟩ := h.each c' hc'
      have hkept := step_kept (hsh c' hc' c hc) hk hst
      refine ⟨k2, ?_⟩
      simp only [Many.put, Function.update_of_ne hcc]
      exact hk2.keep hkept
  · intro hcrash
    exact ⟨c, hc, hk'.crash hcrash⟩

theorem manyInv_steps {n : ℕ} {ps : ℕ → Prog C P} (hsh : ∀ c < n, ∀ c' < n, (ps c).Shares (ps c')) {k : ℕ} {S S' : Many C P}
    (hs : ManySteps n ps k S S') : ManyInv n ps S → ManyInv n ps S' := by
  induction hs with
  | refl => exact id
  | tail _ h2 ih => exact fun h => manyInv_step hsh (ih h) h2

/-! ## Termination -/

def manyWeight (n : ℕ) (ps : ℕ → Prog C P) (S : Many C P) : ℕ := ∑ c ∈ Finset.range n, weight (ps c) (S.view c)

theorem weight_crash_le {p : Prog C P} (s : St C P) (cells : ℕ → C × P) (b : Bool) (hs : s.crashed = false) :
    weight p { s with cells := cells, crashed := b } ≤ weight p s := by
  simp only [weight, hs]
  cases b <;> simp

theorem manyWeight_step {n : ℕ} {ps : ℕ → Prog C P} {S S' : Many C P} (hs : ManyStep n ps S S') :
    manyWeight n ps S' < manyWeight n ps S := by
  obtain ⟨c, hc, s, hst, rfl⟩ := hs
  have hcr := step_not_crashed hst
  apply Finset.sum_lt_sum
  · intro c' hc'
    by_cases hcc : c' = c
    · subst hcc
      have : (S.put c' s).view c' = s := by simp [Many.put, Many.view]
      rw [this]
      rcases hst with h1 | ⟨i, hi, h1⟩
      · exact (weight_main h1).le
      · exact (weight_go hi h1).le
    · have : (S.put c s).view c' = { S.view c' with cells := s.cells, crashed := s.crashed } := by
        simp [Many.put, Many.view, Function.update_of_ne hcc]
      rw [this]
      exact weight_crash_le _ _ _ hcr
  · refine ⟨c, by simpa using hc, ?_⟩
    have : (S.put c s).view c = s := by simp [Many.put, Many.view]
    rw [this]
    rcases hst with h1 | ⟨i, hi, h1⟩
    · exact weight_main h1
    · exact weight_go hi h1

theorem manyWeight_steps {n : ℕ} {ps : ℕ → Prog C P} {k : ℕ} {S S' : Many C P} (hs : ManySteps n ps k S S') :
    manyWeight n ps S' + k ≤ manyWeight n ps S := by
  induction hs with
  | refl => simp
  | tail _ h2 ih => have := manyWeight_step h2; omega

theorem manyWeight_init (n : ℕ) (ps : ℕ → Prog C P) (cells : ℕ → C × P) :
    manyWeight n ps (manyInit ps cells) = ∑ c ∈ Finset.range n, (20 * (ps c).n + 6) := by
  apply Finset.sum_congr rfl
  intro c _
  exact weight_init (ps c) cells

theorem ManySteps.head {n : ℕ} {ps : ℕ → Prog C P} {k : ℕ} {S T U : Many C P} (h1 : ManyStep n ps S T)
    (h2 : ManySteps n ps k T U) : ManySteps n ps (k + 1) S U := by
  induction h2 with
  | refl => exact (ManySteps.refl S).tail h1
  | tail _ h3 ih => exact (ih h1).tail h3

theorem many_exists_final {n : ℕ} {ps : ℕ → Prog C P} (S : Many C P) :
    ∃ k T, ManySteps n ps k S T ∧ ∀ U, ¬ ManyStep n ps T U := by
  obtain ⟨w, hw⟩ : ∃ w, w = manyWeight n ps S := ⟨_, rfl⟩
  induction w using Nat.strong_induction_on generalizing S with
  | _ w ih =>
    by_cases h : ∃ U, ManyStep n ps S U
    · obtain ⟨U, hU⟩ := h
      obtain ⟨k, T, ht, hst⟩ := ih (manyWeight n ps U) (by have := manyWeight_step hU; omega) U rfl
      exact ⟨_, T, .head hU ht, hst⟩
    · push Not at h
      exact ⟨0, S, .refl S, h⟩

end PoL.Sched
