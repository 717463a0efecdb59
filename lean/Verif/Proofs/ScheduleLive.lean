import Verif.Proofs.Schedule

/-! The transition system of `Verify`: termination, progress, runs that return before a panic ends the process. -/

namespace PoL.Sched

variable {C P : Type}

theorem Prog.Steps.trans {p : Prog C P} {k m : ℕ} {s t u : St C P} (h1 : p.Steps k s t) (h2 : p.Steps m t u) :
    p.Steps (k + m) s u := by
  induction h2 with
  | refl => exact h1
  | tail _ h3 ih => exact (ih h1).tail h3

/-! ## Termination -/

def mWeight (n : ℕ) : MPc → ℕ
  | .round i => 11 * (n - i) + 5
  | .check i => 11 * (n - (i + 1)) + 6
  | .mid => 4
  | .wait => 3
  | .load => 2
  | .fin => 1
  | .returned _ => 0

def gWeight : GPc C P → ℕ
  | .idle => 9
  | .start => 8
  | .writeC _ => 7
  | .writeP _ => 6
  | .readP => 5
  | .readC _ => 4
  | .store => 3
  | .done _ => 2
  | .dying => 1
  | .gone => 0

def weight (p : Prog C P) (s : St C P) : ℕ :=
  mWeight p.n s.main + ∑ i ∈ Finset.range p.n, gWeight (s.pcs i) + if s.crashed then 0 else 1

theorem sum_update {n : ℕ} (pcs : ℕ → GPc C P) {i : ℕ} (hi : i < n) (pc : GPc C P) :
    ∑ j ∈ Finset.range n, gWeight (Function.update pcs i pc j) + gWeight (pcs i)
      = ∑ j ∈ Finset.range n, gWeight (pcs j) + gWeight pc := by
  have hm : i ∈ Finset.range n := by simpa using hi
  rw [← Finset.add_sum_erase _ _ hm, ← Finset.add_sum_erase (Finset.range n) (fun j => gWeight (pcs j)) hm]
  have : ∑ j ∈ (Finset.range n).erase i, gWeight (Function.update pcs i pc j)
      = ∑ j ∈ (Finset.range n).erase i, gWeight (pcs j) := by
    apply Finset.sum_congr rfl
    intro j hj
    rw [Function.update_of_ne (Finset.ne_of_mem_erase hj)]
  rw [this, Function.update_self]
  omega

theorem gWeight_le (pc : GPc C P) : gWeight pc ≤ 9 := by cases pc <;> simp [gWeight]

theorem weight_main {p : Prog C P} {s s' : St C P} (h : p.mainStep s = some s') : weight p s' < weight p s := by
  obtain ⟨main, pcs, cells, wg, err, crashed⟩ := s
  cases crashed with
  | true => simp [Prog.mainStep] at h
  | false =>
    unfold Prog.mainStep at h
    simp only [Bool.false_eq_true, if_false] at h
    cases main with
    | round i =>
      dsimp only at h
      by_cases hi : i < p.n
      · rw [if_pos hi] at h
        cases hJ : p.job i with
        | none => rw [hJ] at h; cases h; simp [weight]
        | some J =>
          rw [hJ] at h
          cases h
          have h1 := sum_update pcs hi .start
          simp only [weight, mWeight, gWeight, Bool.false_eq_true, if_false] at h1 ⊢
          omega
      · rw [if_neg hi] at h; cases h; simp [weight, mWeight]
    | check i =>
      dsimp only at h
      split at h <;> cases h <;> simp [weight, mWeight]
    | mid =>
      dsimp only at h
      split at h <;> cases h <;> simp [weight, mWeight]
    | wait =>
      dsimp only at h
      split at h <;> cases h <;> simp [weight, mWeight]
    | load =>
      dsimp only at h
      split at h <;> cases h <;> simp [weight, mWeight]
    | fin =>
      dsimp only at h
      split at h <;> cases h <;> simp [weight, mWeight]
    | returned b => simp at h

theorem weight_go {p : Prog C P} {s s' : St C P} {i : ℕ} (hi : i < p.n) (h : p.goStep i s = some s') :
    weight p s' < weight p s := by
  obtain ⟨main, pcs, cells, wg, err, crashed⟩ := s
  cases crashed with
  | true => simp [Prog.goStep] at h
  | false =>
    have hmove : ∀ (pc : GPc C P) (c' : ℕ → C × P) (w' : ℕ) (e' : Bool), gWeight pc < gWeight (pcs i) →
        weight p ⟨main, Function.update pcs i pc, c', w', e', false⟩ < weight p ⟨main, pcs, cells, wg, err, false⟩ := by
      intro pc c' w' e' hlt
      have h1 := sum_update pcs hi pc
      simp only [weight, Bool.false_eq_true, if_false]
      omega
    unfold Prog.goStep at h
    simp only [Bool.false_eq_true, if_false] at h
    cases hJ : p.job i with
    | none => simp [hJ] at h
    | some J =>
      simp only [hJ] at h
      cases hpc : pcs i with
      | idle => simp [hpc] at h
      | start =>
        simp only [hpc] at h
        split at h <;> cases h <;> apply hmove <;> rw [hpc] <;> simp [gWeight]
      | writeC w => simp only [hpc] at h; cases h; apply hmove; rw [hpc]; simp [gWeight]
      | writeP w => simp only [hpc] at h; cases h; apply hmove; rw [hpc]; simp [gWeight]
      | readP => simp only [hpc] at h; cases h; apply hmove; rw [hpc]; simp [gWeight]
      | readC x =>
        simp only [hpc] at h
        split at h <;> cases h <;> apply hmove <;> rw [hpc] <;> simp [gWeight]
      | store => simp only [hpc] at h; cases h; apply hmove; rw [hpc]; simp [gWeight]
      | done b =>
        simp only [hpc] at h
        by_cases hw : wg = 0
        · rw [if_pos hw] at h; cases h; simp [weight]
        · rw [if_neg hw] at h; cases h; apply hmove; rw [hpc]; cases b <;> simp [gWeight]
      | dying => simp only [hpc] at h; cases h; simp [weight]
      | gone => simp [hpc] at h

theorem weight_steps {p : Prog C P} {k : ℕ} {s s' : St C P} (h : p.Steps k s s') : weight p s' + k ≤ weight p s := by
  induction h with
  | refl => simp
  | tail _ h2 ih =>
    rcases h2 with h2 | ⟨i, hi, h2⟩
    · have := weight_main h2; omega
    · have := weight_go hi h2; omega

theorem weight_init (p : Prog C P) (cells : ℕ → C × P) : weight p (p.init cells) = 20 * p.n + 6 := by
  simp only [weight, Prog.init, mWeight, gWeight, Finset.sum_const, Finset.card_range, smul_eq_mul]
  simp; omega

/-! ## Progress -/

theorem progress {p : Prog C P} {k : ℕ} {s : St C P} (h : Inv p k s) (hcr : s.crashed = false)
    (hstuck : ∀ s', ¬ p.Step s s') : (∃ b, s.main = .returned b) ∧ ∀ i, s.pcs i = .idle ∨ s.pcs i = .gone := by
  have hgo : ∀ i, s.pcs i = .idle ∨ s.pcs i = .gone := by
    intro i
    by_contra hc
    push Not at hc
    obtain ⟨h1, h2⟩ := hc
    have hik : i < k := by
      by_contra hc
      exact h1 ((h.started i).2 (by omega))
    obtain ⟨J, hJ⟩ := Option.isSome_iff_exists.1 (h.jobs i hik)
    have hex : ∃ s', p.goStep i s = some s' := by
      unfold Prog.goStep
      rw [hcr]
      simp only [Bool.false_eq_true, if_false, hJ]
      cases hpc : s.pcs i with
      | idle => exact absurd hpc h1
      | gone => exact absurd hpc h2
      | start => dsimp only; split <;> exact ⟨_, rfl⟩
      | readC x => dsimp only; split <;> exact ⟨_, rfl⟩
      | done b => dsimp only; split <;> exact ⟨_, rfl⟩
      | _ => exact ⟨_, rfl⟩
    obtain ⟨s', hs'⟩ := hex
    exact hstuck s' (.inr ⟨i, lt_of_lt_of_le hik h.bound, hs'⟩)
  refine ⟨?_, hgo⟩
  by_contra hc
  push Not at hc
  have hex : ∃ s', p.mainStep s = some s' := by
    have hm := h.main
    unfold Prog.mainStep
    unfold MOk at hm
    rw [hcr]
    simp only [Bool.false_eq_true, if_false]
    cases hmm : s.main with
    | round i => dsimp only; split <;> [split; skip] <;> exact ⟨_, rfl⟩
    | check i => dsimp only; split <;> exact ⟨_, rfl⟩
    | mid => dsimp only; split <;> exact ⟨_, rfl⟩
    | wait =>
      simp only [hmm] at hm
      have hall : ∀ i < p.n, (s.pcs i).fin = true := by
        intro i hi
        rcases hgo i with h1 | h1
        · have := (h.started i).1 h1
          omega
        · rw [h1]; rfl
      have hw := h.wg
      rw [Finset.filter_true_of_mem (by simpa using hall), Finset.card_range] at hw
      dsimp only
      rw [if_pos (by omega)]
      exact ⟨_, rfl⟩
    | load => dsimp only; split <;> exact ⟨_, rfl⟩
    | fin => dsimp only; split <;> exact ⟨_, rfl⟩
    | returned b => exact absurd hmm (hc b)
  obtain ⟨s', hs'⟩ := hex
  exact hstuck s' (.inl hs')

/-- Every run goes on to one that cannot go on. -/
theorem exists_final {p : Prog C P} (s : St C P) : ∃ k t, p.Steps k s t ∧ ∀ u, ¬ p.Step t u := by
  obtain ⟨w, hw⟩ : ∃ w, w = weight p s := ⟨_, rfl⟩
  induction w using Nat.strong_induction_on generalizing s with
  | _ w ih =>
    by_cases h : ∃ u, p.Step s u
    · obtain ⟨u, hu⟩ := h
      have h1 : p.Steps 1 s u := (Prog.Steps.refl s).tail hu
      have h2 := weight_steps h1
      obtain ⟨k, t, ht, hst⟩ := ih (weight p u) (by omega) u rfl
      exact ⟨_, t, h1.trans ht, hst⟩
    · push Not at h
      exact ⟨0, s, .refl s, h⟩

/-! ## A run of one goroutine -/

theorem step_go {p : Prog C P} {i : ℕ} (hi : i < p.n) {s s' t : St C P} (h : p.goStep i s = some s')
    (ht : ∃ k, p.Steps k s' t) : ∃ k, p.Steps k s t := by
  obtain ⟨k, hk⟩ := ht
  exact ⟨_, ((Prog.Steps.refl s).tail (.inr ⟨i, hi, h⟩)).trans hk⟩

theorem step_main {p : Prog C P} {s s' t : St C P} (h : p.mainStep s = some s')
    (ht : ∃ k, p.Steps k s' t) : ∃ k, p.Steps k s t := by
  obtain ⟨k, hk⟩ := ht
  exact ⟨_, ((Prog.Steps.refl s).tail (.inl h)).trans hk⟩

/-- A goroutine whose job does not return `false` runs through, past its deferred call. -/
theorem run_job {p : Prog C P} {i : ℕ} (hi : i < p.n) {J : Job C P} (hJ : p.job i = some J)
    (hal : p.alone i ≠ some false) (main : MPc) (pcs : ℕ → GPc C P) (hpc : pcs i = .start) (cells : ℕ → C × P)
    (wg : ℕ) (err : Bool) : ∃ k pc cells', pc.fin = true ∧
      p.Steps k ⟨main, pcs, cells, wg + 1, err, false⟩ ⟨main, Function.update pcs i pc, cells', wg, err, false⟩ := by
  have hdone : ∀ (pcs' : ℕ → GPc C P) (b : Bool) (c : ℕ → C × P), ∃ pc : GPc C P, pc.fin = true ∧
      p.goStep i ⟨main, Function.update pcs' i (.done b), c, wg + 1, err, false⟩
        = some ⟨main, Function.update pcs' i pc, c, wg, err, false⟩ := by
    intro pcs' b c
    refine ⟨if b then .dying else .gone, by cases b <;> rfl, ?_⟩
    simp [Prog.goStep, hJ, St.goto]
  have hal' := alone_of_job hJ
  rw [hal'] at hal
  unfold Job.alone at hal
  cases hpre : J.pre with
  | none =>
    obtain ⟨pc, h1, h2⟩ := hdone pcs true cells
    have h0 : p.goStep i ⟨main, pcs, cells, wg + 1, err, false⟩
        = some ⟨main, Function.update pcs i (.done true), cells, wg + 1, err, false⟩ := by
      simp [Prog.goStep, hJ, hpc, hpre, St.goto]
    obtain ⟨k, hk⟩ := step_go hi h0 (step_go hi h2 ⟨0, .refl _⟩)
    exact ⟨k, pc, cells, h1, hk⟩
  | some r =>
    cases r with
    | none => exact absurd (by rw [hpre]; rfl) hal
    | some w =>
      have hpost : J.post w.1 w.2 ≠ some false := by
        intro hc
        apply hal
        rw [hpre]
        exact hc
      obtain ⟨c1, hc1⟩ : ∃ c1, c1 = Function.update cells (p.cell i) (w.1, (cells (p.cell i)).2) := ⟨_, rfl⟩
      obtain ⟨c2, hc2⟩ : ∃ c2, c2 = Function.update c1 (p.cell i) ((c1 (p.cell i)).1, w.2) := ⟨_, rfl⟩
      have hval : c2 (p.cell i) = w := by
        rw [hc2, Function.update_self, hc1, Function.update_self]
      have h0 : p.goStep i ⟨main, pcs, cells, wg + 1, err, false⟩
          = some ⟨main, Function.update pcs i (.writeC w), cells, wg + 1, err, false⟩ := by
        simp [Prog.goStep, hJ, hpc, hpre, St.goto]
      have h1 : p.goStep i ⟨main, Function.update pcs i (.writeC w), cells, wg + 1, err, false⟩
          = some ⟨main, Function.update pcs i (.writeP w), c1, wg + 1, err, false⟩ := by
        simp [Prog.goStep, hJ, St.goto, hc1]
      have h2 : p.goStep i ⟨main, Function.update pcs i (.writeP w), c1, wg + 1, err, false⟩
          = some ⟨main, Function.update pcs i .readP, c2, wg + 1, err, false⟩ := by
        simp [Prog.goStep, hJ, St.goto, hc2]
      have h3 : p.goStep i ⟨main, Function.update pcs i .readP, c2, wg + 1, err, false⟩
          = some ⟨main, Function.update pcs i (.readC w.2), c2, wg + 1, err, false⟩ := by
        simp [Prog.goStep, hJ, St.goto, hval]
      have h4 : ∃ b, p.goStep i ⟨main, Function.update pcs i (.readC w.2), c2, wg + 1, err, false⟩
          = some ⟨main, Function.update pcs i (.done b), c2, wg + 1, err, false⟩ := by
        simp only [Prog.goStep, hJ, St.goto, hval, Function.update_self, Function.update_idem, Bool.false_eq_true,
          if_false]
        cases hp : J.post w.1 w.2 with
        | none => exact ⟨true, rfl⟩
        | some b =>
          cases b with
          | false => exact absurd hp hpost
          | true => exact ⟨false, rfl⟩
      obtain ⟨b, h4⟩ := h4
      obtain ⟨pc, h5, h6⟩ := hdone pcs b c2
      obtain ⟨k, hk⟩ := step_go hi h0 (step_go hi h1 (step_go hi h2 (step_go hi h3 (step_go hi h4
        (step_go hi h6 ⟨0, .refl _⟩)))))
      exact ⟨k, pc, c2, h5, hk⟩

/-- If no job returns `false` and all checks of the main goroutine pass, there is a run that returns `true`, also
if a job panics. -/
theorem run_true {p : Prog C P} (hjobs : ∀ i < p.n, (p.job i).isSome) (hal : ∀ i < p.n, p.alone i ≠ some false)
    (hck : ∀ i < p.n, p.check i = some true) (hmid : p.mid = some true) (hfin : p.fin = some true)
    (cells : ℕ → C × P) : ∃ k s, p.Steps k (p.init cells) s ∧ s.main = .returned true := by
  have hloop : ∀ m ≤ p.n, ∃ k pcs cells', p.Steps k (p.init cells) ⟨.round m, pcs, cells', p.n - m, false, false⟩ := by
    intro m
    induction m with
    | zero => intro _; exact ⟨0, _, _, .refl _⟩
    | succ m ih =>
      intro hm
      obtain ⟨k, pcs, c, hk⟩ := ih (by omega)
      obtain ⟨J, hJ⟩ := Option.isSome_iff_exists.1 (hjobs m (by omega))
      have h1 : p.mainStep ⟨.round m, pcs, c, p.n - m, false, false⟩
          = some ⟨.check m, Function.update pcs m .start, c, p.n - (m + 1) + 1, false, false⟩ := by
        have : p.n - (m + 1) + 1 = p.n - m := by omega
        rw [this]
        have hm' : m < p.n := by omega
        simp [Prog.mainStep, hJ, hm']
      obtain ⟨k2, pc, c', -, hk2⟩ := run_job (show m < p.n by omega) hJ (hal m (by omega)) (.check m)
        (Function.update pcs m .start) (Function.update_self _ _ _) c (p.n - (m + 1)) false
      rw [Function.update_idem] at hk2
      have h2 : p.mainStep ⟨.check m, Function.update pcs m pc, c', p.n - (m + 1), false, false⟩
          = some ⟨.round (m + 1), Function.update pcs m pc, c', p.n - (m + 1), false, false⟩ := by
        simp [Prog.mainStep, hck m (by omega)]
      exact ⟨_, _, _, ((hk.tail (.inl h1)).trans hk2).tail (.inl h2)⟩
  obtain ⟨k, pcs, c, hk⟩ := hloop p.n le_rfl
  rw [Nat.sub_self] at hk
  have h1 : p.mainStep ⟨.round p.n, pcs, c, 0, false, false⟩ = some ⟨.mid, pcs, c, 0, false, false⟩ := by
    simp [Prog.mainStep]
  have h2 : p.mainStep ⟨.mid, pcs, c, 0, false, false⟩ = some ⟨.wait, pcs, c, 0, false, false⟩ := by
    simp [Prog.mainStep, hmid]
  have h3 : p.mainStep ⟨.wait, pcs, c, 0, false, false⟩ = some ⟨.load, pcs, c, 0, false, false⟩ := by
    simp [Prog.mainStep]
  have h4 : p.mainStep ⟨.load, pcs, c, 0, false, false⟩ = some ⟨.fin, pcs, c, 0, false, false⟩ := by
    simp [Prog.mainStep]
  have h5 : p.mainStep ⟨.fin, pcs, c, 0, false, false⟩ = some ⟨.returned true, pcs, c, 0, false, false⟩ := by
    simp [Prog.mainStep, hfin]
  exact ⟨_, _, ((((hk.tail (.inl h1)).tail (.inl h2)).tail (.inl h3)).tail (.inl h4)).tail (.inl h5), rfl⟩

end PoL.Sched
