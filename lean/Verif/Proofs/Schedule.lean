import Verif.Model.Schedule
import Verif.Proofs.Vec
import Mathlib.Algebra.BigOperators.Group.Finset.Basic
import Mathlib.Data.Finset.Card

/-! The transition system of `Verify`. -/

namespace PoL.Sched

variable {C P : Type}

/-- What job `i` returns when it runs alone. -/
def Prog.alone (p : Prog C P) (i : ℕ) : Option Bool := (p.job i).bind Job.alone

/-- Past the deferred call. -/
def GPc.fin : GPc C P → Bool
  | .dying => true
  | .gone => true
  | _ => false

/-! ## The sequential program -/

theorem seqLoop_step {p : Prog C P} {i : ℕ} {ok : Bool} (h : p.alone i = some ok) (hc : p.check i = some true)
    (rest : ℕ) (err : Bool) : p.seqLoop i (rest + 1) err = p.seqLoop (i + 1) rest (err || !ok) := by
  unfold Prog.alone at h
  obtain ⟨J, hJ, h⟩ := Option.bind_eq_some_iff.1 h
  rw [Prog.seqLoop]
  refine Eq.trans (obind_eq hJ) ?_
  refine Eq.trans (obind_eq h) ?_
  refine Eq.trans (obind_eq hc) ?_
  rfl
where
  obind_eq {α β : Type} {x : Option α} {a : α} {f : α → Option β} (h : x = some a) : (x >>= f) = f a := by
    rw [h]; rfl

theorem seqLoop_prefix {p : Prog C P} (k : ℕ) (hk : k ≤ p.n) (hj : ∀ i < k, p.alone i ≠ none)
    (hc : ∀ i < k, p.check i = some true) :
    ∃ e, p.seqLoop 0 p.n false = p.seqLoop k (p.n - k) e ∧ (e = true ↔ ∃ i < k, p.alone i = some false) := by
  induction k with
  | zero => exact ⟨false, rfl, by simp⟩
  | succ k ih =>
    obtain ⟨e, h1, h2⟩ := ih (by omega) (fun i hi => hj i (by omega)) (fun i hi => hc i (by omega))
    obtain ⟨ok, hok⟩ := Option.ne_none_iff_exists'.1 (hj k (by omega))
    refine ⟨e || !ok, ?_, ?_⟩
    · rw [h1, show p.n - k = (p.n - (k + 1)) + 1 by omega, seqLoop_step hok (hc k (by omega))]
    · rw [Bool.or_eq_true, h2]
      constructor
      · rintro (⟨i, hi, h⟩ | h)
        · exact ⟨i, by omega, h⟩
        · exact ⟨k, by omega, by rw [hok]; simpa using h⟩
      · rintro ⟨i, hi, h⟩
        rcases Nat.lt_succ_iff_lt_or_eq.1 hi with hi | rfl
        · exact .inl ⟨i, hi, h⟩
        · rw [hok, Option.some.injEq] at h
          exact .inr (by rw [h]; rfl)

theorem seqLoop_job_none {p : Prog C P} {i : ℕ} (h : p.alone i = none) (rest : ℕ) (err : Bool) :
    p.seqLoop i (rest + 1) err = none := by
  rw [Prog.seqLoop]
  unfold Prog.alone at h
  cases hJ : p.job i with
  | none => rfl
  | some J =>
    rw [hJ, Option.bind_some] at h
    simp only [Option.bind_eq_bind, Option.bind_some, h, Option.bind_none]

theorem seqLoop_check {p : Prog C P} {i : ℕ} {ok : Bool} (h : p.alone i = some ok) (rest : ℕ) (err : Bool) :
    (p.check i = none → p.seqLoop i (rest + 1) err = none) ∧
    (p.check i = some false → p.seqLoop i (rest + 1) err = some none) := by
  unfold Prog.alone at h
  obtain ⟨J, hJ, h⟩ := Option.bind_eq_some_iff.1 h
  constructor
  · intro hc
    rw [Prog.seqLoop, hJ]
    simp only [Option.bind_eq_bind, Option.bind_some, h, hc, Option.bind_none]
  · intro hc
    rw [Prog.seqLoop, hJ]
    simp [h, hc]

/-- A panicking job among the first `k` makes the sequential program panic, if the rounds before pass. -/
theorem seq_none_of_job {p : Prog C P} (k : ℕ) (hk : k ≤ p.n) (hc : ∀ i, i + 1 < k → p.check i = some true)
    (h : ∃ i < k, p.alone i = none) : p.seq = none := by
  classical
  obtain ⟨h1, h2⟩ := Nat.find_spec h
  have hmin := fun j => Nat.find_min h (m := j)
  obtain ⟨m, hm⟩ : ∃ m, m = Nat.find h := ⟨_, rfl⟩
  rw [← hm] at h1 h2 hmin
  obtain ⟨e, he, -⟩ := seqLoop_prefix (p := p) m (by omega)
    (fun i hi hn => hmin i hi ⟨by omega, hn⟩) (fun i hi => hc i (by omega))
  unfold Prog.seq
  rw [he, show p.n - m = (p.n - (m + 1)) + 1 by omega, seqLoop_job_none h2]
  rfl

theorem seq_after_loop {p : Prog C P} (hj : ∀ i < p.n, p.alone i ≠ none) (hc : ∀ i < p.n, p.check i = some true) :
    ∃ e, (e = true ↔ ∃ i < p.n, p.alone i = some false) ∧
      p.seq = (do if !(← p.mid) then return false else if e then return false else p.fin) := by
  obtain ⟨e, he, h2⟩ := seqLoop_prefix p.n le_rfl hj hc
  refine ⟨e, h2, ?_⟩
  unfold Prog.seq
  rw [he, Nat.sub_self]
  rfl

/-! ## The invariant -/

/-- The condition on goroutine `i`. -/
def GOk (p : Prog C P) (s : St C P) (i : ℕ) : Prop :=
  match s.pcs i with
  | .idle => True
  | .start => True
  | .writeC w => (p.job i).map Job.pre = some (some (some w))
  | .writeP w => (p.job i).map Job.pre = some (some (some w)) ∧ (s.cells (p.cell i)).1 = w.1
  | .readP => (p.job i).map Job.pre = some (some (some (s.cells (p.cell i))))
  | .readC x => (p.job i).map Job.pre = some (some (some ((s.cells (p.cell i)).1, x)))
  | .store => p.alone i = some false
  | .done true => p.alone i = none
  | .dying => p.alone i = none
  | .done false => p.alone i = some true ∨ (p.alone i = some false ∧ s.err = true)
  | .gone => p.alone i = some true ∨ (p.alone i = some false ∧ s.err = true)

/-- The condition on the main goroutine, when `k` goroutines have been started. -/
def MOk (p : Prog C P) (k : ℕ) (s : St C P) : Prop :=
  match s.main with
  | .round i => k = i ∧ ∀ j < i, p.check j = some true
  | .check i => k = i + 1
  | .mid => k = p.n ∧ ∀ j < p.n, p.check j = some true
  | .wait => k = p.n ∧ (∀ j < p.n, p.check j = some true) ∧ p.mid = some true
  | .load => k = p.n ∧ (∀ j < p.n, p.check j = some true) ∧ p.mid = some true ∧ ∀ j < p.n, (s.pcs j).fin = true
  | .fin => k = p.n ∧ (∀ j < p.n, p.check j = some true) ∧ p.mid = some true ∧ ∀ j < p.n, p.alone j ≠ some false
  | .returned b => p.seq = some b ∨ (p.seq = none ∧ ∃ i < k, p.alone i = none)

structure Inv (p : Prog C P) (k : ℕ) (s : St C P) : Prop where
  bound : k ≤ p.n
  jobs : ∀ i < k, (p.job i).isSome
  checks : ∀ i, i + 1 < k → p.check i = some true
  idle : ∀ i, (s.pcs i).fin = true → i < k
  started : ∀ i, (s.pcs i = .idle ↔ k ≤ i)
  err : s.err = true → ∃ i < k, p.alone i = some false
  wg : s.wg + ((Finset.range p.n).filter fun i => (s.pcs i).fin = true).card = p.n
  gos : ∀ i, GOk p s i
  main : MOk p k s
  crash : s.crashed = true → p.seq = none

theorem inv_init (p : Prog C P) (cells : ℕ → C × P) : Inv p 0 (p.init cells) where
  bound := Nat.zero_le _
  jobs := fun i hi => absurd hi (by omega)
  checks := fun i hi => absurd hi (by omega)
  idle := by intro i h; simp [Prog.init, GPc.fin] at h
  started := by intro i; simp [Prog.init]
  err := by intro h; simp [Prog.init] at h
  wg := by simp [Prog.init, GPc.fin]
  gos := by intro i; simp [GOk, Prog.init]
  main := by simp [MOk, Prog.init]
  crash := by intro h; simp [Prog.init] at h

theorem Inv.crashed {p : Prog C P} {k : ℕ} {s : St C P} (h : Inv p k s) (hs : p.seq = none) :
    Inv p k { s with crashed := true } :=
  { h with crash := fun _ => hs }

theorem Inv.crashed' {p : Prog C P} {k : ℕ} {s : St C P} (h : Inv p k s) {m : MPc} (hm : s.main = m)
    (hs : p.seq = none) : Inv p k { s with main := m, crashed := true } := by
  subst hm
  exact h.crashed hs

/-- A change of the position of the main goroutine only. -/
theorem Inv.goMain {p : Prog C P} {k : ℕ} {s : St C P} (h : Inv p k s) (m : MPc)
    (hm : MOk p k { s with main := m }) : Inv p k { s with main := m } :=
  { h with main := hm }

theorem inv_main {p : Prog C P} {k : ℕ} {s s' : St C P} (h : Inv p k s) (hs : p.mainStep s = some s') :
    ∃ k', Inv p k' s' := by
  have hmain := h.main
  unfold Prog.mainStep at hs
  have hcr : ¬ s.crashed = true := by
    intro hc
    rw [if_pos hc] at hs
    simp at hs
  rw [if_neg hcr] at hs
  unfold MOk at hmain
  cases hm : s.main with
  | round i =>
    simp only [hm] at hs hmain
    obtain ⟨rfl, hck⟩ := hmain
    split_ifs at hs with hi
    · cases hJ : p.job k with
      | none =>
        rw [hJ] at hs
        simp only [Option.some.injEq] at hs
        subst hs
        refine ⟨k, h.crashed' hm ?_⟩
        have halone : p.alone k = none := by simp [Prog.alone, hJ]
        by_cases hn : ∃ i < k, p.alone i = none
        · exact seq_none_of_job k h.bound (fun i hi => hck i (by omega)) hn
        · exact seq_none_of_job (k + 1) hi (fun i hi => hck i (by omega)) ⟨k, by omega, halone⟩
      | some J =>
        rw [hJ] at hs
        simp only [Option.some.injEq] at hs
        subst hs
        refine ⟨k + 1, ?_⟩
        have hfin : ∀ i, (Function.update s.pcs k .start i).fin = true ↔ (s.pcs i).fin = true := by
          intro i
          by_cases hik : i = k
          · rw [hik, Function.update_self]
            have := (h.started k).2 le_rfl
            rw [this]; simp [GPc.fin]
          · rw [Function.update_of_ne hik]
        constructor
        · exact hi
        · intro i hi'
          rcases Nat.lt_succ_iff_lt_or_eq.1 hi' with h' | rfl
          · exact h.jobs i h'
          · rw [hJ]; rfl
        · intro i hi'; exact hck i (by omega)
        · intro i hi'
          have := h.idle i ((hfin i).1 hi'); omega
        · intro i
          show Function.update s.pcs k .start i = .idle ↔ _
          by_cases hik : i = k
          · rw [hik, Function.update_self]; simp
          · rw [Function.update_of_ne hik, h.started i]; omega
        · intro he
          obtain ⟨i, hi', h'⟩ := h.err he
          exact ⟨i, by omega, h'⟩
        · have := h.wg
          simp only [hfin]
          exact this
        · intro i
          have := h.gos i
          unfold GOk at this ⊢
          by_cases hik : i = k
          · subst hik; simp
          · simp only [Function.update_of_ne hik]
            exact this
        · simp [MOk]
        · intro hc; exact absurd hc hcr
    · simp only [Option.some.injEq] at hs
      subst hs
      have : k = p.n := le_antisymm h.bound (by omega)
      exact ⟨k, h.goMain _ (by simp only [MOk]; exact ⟨this, fun j hj => hck j (by omega)⟩)⟩
  | check i =>
    simp only [hm] at hs hmain
    subst hmain
    have hbound := h.bound
    have hbefore : ∀ j < i, p.check j = some true := fun j hj => h.checks j (by omega)
    -- without a panic so far, the sequential program is at this check
    have hseq : (∃ j < i + 1, p.alone j = none) ∨ ∃ e ok, p.alone i = some ok ∧
        p.seqLoop 0 p.n false = p.seqLoop i (p.n - (i + 1) + 1) e := by
      by_cases hn : ∃ j < i + 1, p.alone j = none
      · exact .inl hn
      · push Not at hn
        obtain ⟨e, he, -⟩ := seqLoop_prefix (p := p) i (by omega) (fun j hj => hn j (by omega)) hbefore
        obtain ⟨ok, hok⟩ := Option.ne_none_iff_exists'.1 (hn i (by omega))
        exact .inr ⟨e, ok, hok, by rw [he]; congr 1; omega⟩
    cases hc : p.check i with
    | none =>
      rw [hc] at hs
      simp only [Option.some.injEq] at hs
      subst hs
      refine ⟨_, h.crashed' hm ?_⟩
      rcases hseq with hn | ⟨e, ok, hok, he⟩
      · exact seq_none_of_job (i + 1) hbound (fun j hj => hbefore j (by omega)) hn
      · unfold Prog.seq
        rw [he, (seqLoop_check hok _ _).1 hc]; rfl
    | some b =>
      cases b with
      | false =>
        rw [hc] at hs
        simp only [Option.some.injEq] at hs
        subst hs
        refine ⟨_, h.goMain _ ?_⟩
        simp only [MOk]
        rcases hseq with hn | ⟨e, ok, hok, he⟩
        · exact .inr ⟨seq_none_of_job (i + 1) hbound (fun j hj => hbefore j (by omega)) hn, hn⟩
        · left
          unfold Prog.seq
          rw [he, (seqLoop_check hok _ _).2 hc]; rfl
      | true =>
        rw [hc] at hs
        simp only [Option.some.injEq] at hs
        subst hs
        refine ⟨_, h.goMain _ ?_⟩
        simp only [MOk]
        refine ⟨by trivial, fun j hj => ?_⟩
        rcases Nat.lt_succ_iff_lt_or_eq.1 hj with hj | rfl
        · exact hbefore j hj
        · exact hc
  | mid =>
    simp only [hm] at hs hmain
    obtain ⟨rfl, hck⟩ := hmain
    have hseq : (∃ j < p.n, p.alone j = none) ∨ ∃ e : Bool, p.seq
        = (do if !(← p.mid) then return false else if e then return false else p.fin) := by
      by_cases hn : ∃ j < p.n, p.alone j = none
      · exact .inl hn
      · push Not at hn
        obtain ⟨e, -, he⟩ := seq_after_loop hn hck
        exact .inr ⟨e, he⟩
    cases hc : p.mid with
    | none =>
      rw [hc] at hs
      simp only [Option.some.injEq] at hs
      subst hs
      refine ⟨_, h.crashed' hm ?_⟩
      rcases hseq with hn | ⟨e, he⟩
      · exact seq_none_of_job p.n le_rfl (fun j hj => hck j (by omega)) hn
      · rw [he, hc]; rfl
    | some b =>
      cases b with
      | false =>
        rw [hc] at hs
        simp only [Option.some.injEq] at hs
        subst hs
        refine ⟨_, h.goMain _ ?_⟩
        simp only [MOk]
        rcases hseq with hn | ⟨e, he⟩
        · exact .inr ⟨seq_none_of_job p.n le_rfl (fun j hj => hck j (by omega)) hn, hn⟩
        · left
          rw [he, hc]; rfl
      | true =>
        rw [hc] at hs
        simp only [Option.some.injEq] at hs
        subst hs
        exact ⟨_, h.goMain _ (by simp only [MOk]; exact ⟨by trivial, hck, hc⟩)⟩
  | wait =>
    simp only [hm] at hs hmain
    obtain ⟨rfl, hck, hmid⟩ := hmain
    split_ifs at hs with hw
    simp only [Option.some.injEq] at hs
    subst hs
    refine ⟨_, h.goMain _ ?_⟩
    simp only [MOk]
    refine ⟨by trivial, hck, hmid, ?_⟩
    have hcard := h.wg
    rw [hw, zero_add] at hcard
    have := Finset.filter_card_eq (s := Finset.range p.n) (p := fun i => (s.pcs i).fin = true) (by rw [hcard]; simp)
    intro j hj
    exact this j (by simpa using hj)
  | load =>
    simp only [hm] at hs hmain
    obtain ⟨rfl, hck, hmid, hfin⟩ := hmain
    split_ifs at hs with he
    · simp only [Option.some.injEq] at hs
      subst hs
      refine ⟨_, h.goMain _ ?_⟩
      simp only [MOk]
      by_cases hn : ∃ j < p.n, p.alone j = none
      · exact .inr ⟨seq_none_of_job p.n le_rfl (fun j hj => hck j (by omega)) hn, hn⟩
      · push Not at hn
        obtain ⟨e, h1, h2⟩ := seq_after_loop hn hck
        have := h1.2 (h.err he)
        left
        rw [h2, hmid, this]; rfl
    · simp only [Option.some.injEq] at hs
      subst hs
      refine ⟨_, h.goMain _ ?_⟩
      simp only [MOk]
      refine ⟨by trivial, hck, hmid, fun j hj hf => ?_⟩
      have h1 := hfin j hj
      have h2 := h.gos j
      unfold GOk at h2
      cases hpc : s.pcs j with
      | dying => simp only [hpc] at h2; rw [hf] at h2; simp at h2
      | gone =>
        simp only [hpc] at h2
        rcases h2 with h2 | ⟨-, h2⟩
        · rw [hf] at h2; simp at h2
        · exact he h2
      | _ => rw [hpc] at h1; simp [GPc.fin] at h1
  | fin =>
    simp only [hm] at hs hmain
    obtain ⟨rfl, hck, hmid, hal⟩ := hmain
    have hseq : (∃ j < p.n, p.alone j = none) ∨ p.seq = p.fin := by
      by_cases hn : ∃ j < p.n, p.alone j = none
      · exact .inl hn
      · push Not at hn
        obtain ⟨e, h1, h2⟩ := seq_after_loop hn hck
        right
        have : e = false := by
          by_contra hc
          obtain ⟨i, hi, hf⟩ := h1.1 (by simpa using hc)
          exact hal i hi hf
        rw [h2, hmid, this]; rfl
    cases hc : p.fin with
    | none =>
      rw [hc] at hs
      simp only [Option.some.injEq] at hs
      subst hs
      refine ⟨_, h.crashed' hm ?_⟩
      rcases hseq with hn | he
      · exact seq_none_of_job p.n le_rfl (fun j hj => hck j (by omega)) hn
      · rw [he, hc]
    | some b =>
      rw [hc] at hs
      simp only [Option.some.injEq] at hs
      subst hs
      refine ⟨_, h.goMain _ ?_⟩
      simp only [MOk]
      rcases hseq with hn | he
      · exact .inr ⟨seq_none_of_job p.n le_rfl (fun j hj => hck j (by omega)) hn, hn⟩
      · left; rw [he, hc]
  | returned b => simp only [hm] at hs; simp at hs

/-! ## Steps of the other goroutines -/

/-- Goroutines of `p` and `q` that use the same inner-product proof write the same to it. -/
def Prog.Shares (p q : Prog C P) : Prop :=
  ∀ i j, i < p.n → j < q.n → p.cell i = q.cell j → ∀ v w, (p.job i).map Job.pre = some (some (some v)) →
    (q.job j).map Job.pre = some (some (some w)) → v = w

theorem Prog.shares_self {p : Prog C P} (h : Function.Injective p.cell) : p.Shares p := by
  intro i j _ _ hij v w h1 h2
  rw [h hij, h2] at h1
  simpa using h1.symm

/-- What `p` wrote before is still there. -/
def Prog.Kept (p : Prog C P) (cells cells' : ℕ → C × P) : Prop :=
  ∀ j < p.n, ∀ w, (p.job j).map Job.pre = some (some (some w)) →
    ((cells (p.cell j)).1 = w.1 → (cells' (p.cell j)).1 = w.1) ∧ ((cells (p.cell j)).2 = w.2 → (cells' (p.cell j)).2 = w.2)

theorem Prog.Kept.refl (p : Prog C P) (cells : ℕ → C × P) : p.Kept cells cells := fun _ _ _ _ => ⟨id, id⟩

/-- A write of goroutine `i` of `q` keeps what `p` wrote. -/
theorem Prog.Shares.kept {p q : Prog C P} (h : p.Shares q) {i : ℕ} (hi : i < q.n) {w : C × P}
    (hw : (q.job i).map Job.pre = some (some (some w))) (cells : ℕ → C × P) (v : C × P)
    (hv : (v.1 = w.1 ∧ v.2 = (cells (q.cell i)).2) ∨ (v.1 = (cells (q.cell i)).1 ∧ v.2 = w.2)) :
    p.Kept cells (Function.update cells (q.cell i) v) := by
  intro j hj w' hw'
  by_cases hc : p.cell j = q.cell i
  · obtain rfl := h j i hj hi hc _ _ hw' hw
    rw [hc, Function.update_self]
    rcases hv with ⟨h1, h2⟩ | ⟨h1, h2⟩
    · exact ⟨fun _ => h1, fun h => h2.trans h⟩
    · exact ⟨fun h => h1.trans h, fun _ => h2⟩
  · rw [Function.update_of_ne hc]
    exact ⟨id, id⟩

/-- The condition on a goroutine that is under way, if what was written is still there. -/
theorem GOk.keep {p : Prog C P} {s : St C P} {j : ℕ} (hj : j < p.n) (h : GOk p s j) {cells : ℕ → C × P}
    (hk : p.Kept s.cells cells) : GOk p { s with cells := cells } j := by
  unfold GOk at h ⊢
  cases hpj : s.pcs j with
  | writeP w =>
    simp only [hpj] at h ⊢
    exact ⟨h.1, (hk j hj w h.1).1 h.2⟩
  | readP =>
    simp only [hpj] at h ⊢
    have h1 := hk j hj _ h
    rw [h, show cells (p.cell j) = s.cells (p.cell j) from Prod.ext (h1.1 rfl) (h1.2 rfl)]
  | readC x =>
    simp only [hpj] at h ⊢
    have h1 := hk j hj _ h
    rw [h, h1.1 rfl]
  | done b => cases b <;> · simp only [hpj] at h ⊢; exact h
  | idle => trivial
  | start => trivial
  | _ => simp only [hpj] at h ⊢; exact h

/-- Goroutine `i` moves on, other than through its deferred call. -/
theorem Inv.move {p : Prog C P} {k : ℕ} {s : St C P}
    (h : Inv p k s) {i : ℕ} (hi : i < k) (hnf : (s.pcs i).fin = false) (cells : ℕ → C × P)
    (hcells : p.Kept s.cells cells) (err : Bool) (herr : s.err = true → err = true)
    (herr' : err = true → ∃ i < k, p.alone i = some false) (pc : GPc C P) (hpc : pc ≠ .idle) (hpcf : pc.fin = false)
    (hok : GOk p ({ s with cells := cells, err := err }.goto i pc) i) :
    Inv p k ({ s with cells := cells, err := err }.goto i pc) := by
  have hfin : ∀ j, (Function.update s.pcs i pc j).fin = true ↔ (s.pcs j).fin = true := by
    intro j
    by_cases hj : j = i
    · rw [hj, Function.update_self, hpcf, hnf]
    · rw [Function.update_of_ne hj]
  constructor
  · exact h.bound
  · exact h.jobs
  · exact h.checks
  · intro j hj; exact h.idle j ((hfin j).1 hj)
  · intro j
    show Function.update s.pcs i pc j = .idle ↔ _
    by_cases hj : j = i
    · rw [hj, Function.update_self]
      constructor
      · intro hc; exact absurd hc hpc
      · intro hc; omega
    · rw [Function.update_of_ne hj, h.started j]
  · exact herr'
  · have := h.wg
    simp only [St.goto, hfin]
    exact this
  · intro j
    by_cases hj : j = i
    · rw [hj]; exact hok
    · have hg : GOk p { s with cells := cells } j := by
        by_cases hjk : j < k
        · exact (h.gos j).keep (lt_of_lt_of_le hjk h.bound) hcells
        · unfold GOk
          simp only [(h.started j).2 (by omega)]
      unfold GOk at hg ⊢
      simp only [St.goto, Function.update_of_ne hj]
      cases hpj : s.pcs j with
      | done b =>
        cases b with
        | true => simp only [hpj] at hg ⊢; exact hg
        | false =>
          simp only [hpj] at hg ⊢
          exact hg.imp id (fun ⟨a, b⟩ => ⟨a, herr b⟩)
      | gone =>
        simp only [hpj] at hg ⊢
        exact hg.imp id (fun ⟨a, b⟩ => ⟨a, herr b⟩)
      | idle => trivial
      | start => trivial
      | _ => simp only [hpj] at hg ⊢; exact hg
  · have hm := h.main
    unfold MOk at hm ⊢
    simp only [St.goto]
    cases hmm : s.main with
    | load =>
      simp only [hmm] at hm ⊢
      obtain ⟨a, b, c, d⟩ := hm
      exact ⟨a, b, c, fun j hj => (hfin j).2 (d j hj)⟩
    | _ => simp only [hmm] at hm ⊢; exact hm
  · exact h.crash

theorem alone_of_job {p : Prog C P} {i : ℕ} {J : Job C P} (hJ : p.job i = some J) : p.alone i = J.alone := by
  simp [Prog.alone, hJ]

theorem inv_go {p : Prog C P} (hsh : p.Shares p) {k : ℕ} {s s' : St C P}
    (h : Inv p k s) (i : ℕ) (hs : p.goStep i s = some s') : Inv p k s' := by
  unfold Prog.goStep at hs
  have hcr : ¬ s.crashed = true := by
    intro hc
    rw [if_pos hc] at hs
    simp at hs
  rw [if_neg hcr] at hs
  cases hJ : p.job i with
  | none => simp [hJ] at hs
  | some J =>
    simp only [hJ] at hs
    have hal := alone_of_job hJ
    have hg := h.gos i
    have hid : s.pcs i ≠ .idle → i < k := by
      intro hid
      by_contra hc
      exact hid ((h.started i).2 (by omega))
    have hsame := Prog.Kept.refl p s.cells
    unfold GOk at hg
    cases hpc : s.pcs i with
    | idle => simp [hpc] at hs
    | start =>
      have hik := hid (by rw [hpc]; simp)
      simp only [hpc] at hs
      cases hp : J.pre with
      | none =>
        rw [hp] at hs
        simp only [Option.some.injEq] at hs
        subst hs
        exact h.move hik (by rw [hpc]; rfl) s.cells hsame s.err id h.err _ (by simp) rfl (by
          simp only [GOk, St.goto, Function.update_self]
          rw [hal]; unfold Job.alone; rw [hp]; rfl)
      | some r =>
        cases r with
        | none =>
          rw [hp] at hs
          simp only [Option.some.injEq] at hs
          subst hs
          exact h.move hik (by rw [hpc]; rfl) s.cells hsame s.err id h.err _ (by simp) rfl (by
            simp only [GOk, St.goto, Function.update_self]
            rw [hal]; unfold Job.alone; rw [hp]; rfl)
        | some w =>
          rw [hp] at hs
          simp only [Option.some.injEq] at hs
          subst hs
          exact h.move hik (by rw [hpc]; rfl) s.cells hsame s.err id h.err _ (by simp) rfl (by
            simp only [GOk, St.goto, Function.update_self]
            rw [hJ, Option.map_some, hp])
    | writeC w =>
      have hik := hid (by rw [hpc]; simp)
      simp only [hpc] at hs hg
      simp only [Option.some.injEq] at hs
      subst hs
      refine h.move hik (by rw [hpc]; rfl) (Function.update s.cells (p.cell i) (w.1, (s.cells (p.cell i)).2))
        (hsh.kept (lt_of_lt_of_le hik h.bound) hg _ _ (.inl ⟨rfl, rfl⟩)) s.err id h.err _ (by simp) rfl ?_
      simp only [GOk, St.goto, Function.update_self]
      exact ⟨hg, trivial⟩
    | writeP w =>
      have hik := hid (by rw [hpc]; simp)
      simp only [hpc] at hs hg
      simp only [Option.some.injEq] at hs
      subst hs
      refine h.move hik (by rw [hpc]; rfl) (Function.update s.cells (p.cell i) ((s.cells (p.cell i)).1, w.2))
        (hsh.kept (lt_of_lt_of_le hik h.bound) hg.1 _ _ (.inr ⟨rfl, rfl⟩)) s.err id h.err _ (by simp) rfl ?_
      simp only [GOk, St.goto, Function.update_self]
      rw [hg.1, hg.2]
    | readP =>
      have hik := hid (by rw [hpc]; simp)
      simp only [hpc] at hs hg
      simp only [Option.some.injEq] at hs
      subst hs
      refine h.move hik (by rw [hpc]; rfl) s.cells hsame s.err id h.err _ (by simp) rfl ?_
      simp only [GOk, St.goto, Function.update_self]
      exact hg
    | readC x =>
      have hik := hid (by rw [hpc]; simp)
      simp only [hpc] at hs hg
      have hpost : p.alone i = J.post (s.cells (p.cell i)).1 x := by
        rw [hJ, Option.map_some, Option.some.injEq] at hg
        rw [hal]; unfold Job.alone; rw [hg]; rfl
      cases hp : J.post (s.cells (p.cell i)).1 x with
      | none =>
        rw [hp] at hs hpost
        simp only [Option.some.injEq] at hs
        subst hs
        exact h.move hik (by rw [hpc]; rfl) s.cells hsame s.err id h.err _ (by simp) rfl (by
          simp only [GOk, St.goto, Function.update_self]; exact hpost)
      | some b =>
        cases b with
        | false =>
          rw [hp] at hs hpost
          simp only [Option.some.injEq] at hs
          subst hs
          exact h.move hik (by rw [hpc]; rfl) s.cells hsame s.err id h.err _ (by simp) rfl (by
            simp only [GOk, St.goto, Function.update_self]; exact hpost)
        | true =>
          rw [hp] at hs hpost
          simp only [Option.some.injEq] at hs
          subst hs
          exact h.move hik (by rw [hpc]; rfl) s.cells hsame s.err id h.err _ (by simp) rfl (by
            simp only [GOk, St.goto, Function.update_self]; exact .inl hpost)
    | store =>
      have hik := hid (by rw [hpc]; simp)
      simp only [hpc] at hs hg
      simp only [Option.some.injEq] at hs
      subst hs
      refine h.move hik (by rw [hpc]; rfl) s.cells hsame true (fun _ => rfl) (fun _ => ⟨i, hik, hg⟩) _ (by simp) rfl ?_
      simp only [GOk, St.goto, Function.update_self]
      exact .inr ⟨hg, trivial⟩
    | done b =>
      have hik := hid (by rw [hpc]; simp)
      simp only [hpc] at hs hg
      have hin : i < p.n := lt_of_lt_of_le hik h.bound
      have hnf : (s.pcs i).fin = false := by rw [hpc]; rfl
      obtain ⟨pc, hpcdef⟩ : ∃ pc : GPc C P, pc = if b then .dying else .gone := ⟨_, rfl⟩
      have hpcf : pc.fin = true := by rw [hpcdef]; cases b <;> rfl
      have hcard : ((Finset.range p.n).filter fun j => (Function.update s.pcs i pc j).fin = true)
          = insert i ((Finset.range p.n).filter fun j => (s.pcs j).fin = true) := by
        ext j
        simp only [Finset.mem_filter, Finset.mem_range, Finset.mem_insert]
        by_cases hj : j = i
        · subst hj
          rw [Function.update_self]
          simp [hin, hpcf]
        · rw [Function.update_of_ne hj]
          simp [hj]
      have hcard' := congrArg Finset.card hcard
      rw [Finset.card_insert_of_notMem (by simp [hnf])] at hcard'
      have hle : ((Finset.range p.n).filter fun j => (Function.update s.pcs i pc j).fin = true).card ≤ p.n := by
        calc _ ≤ (Finset.range p.n).card := Finset.card_filter_le _ _
          _ = p.n := Finset.card_range _
      have hw := h.wg
      by_cases hw0 : s.wg = 0
      · omega
      · rw [if_neg hw0, ← hpcdef] at hs
        simp only [Option.some.injEq] at hs
        subst hs
        constructor
        · exact h.bound
        · exact h.jobs
        · exact h.checks
        · intro j hj
          by_cases hji : j = i
          · rw [hji]; exact hik
          · simp only [St.goto, Function.update_of_ne hji] at hj
            exact h.idle j hj
        · intro j
          show Function.update s.pcs i pc j = .idle ↔ _
          by_cases hj : j = i
          · rw [hj, Function.update_self]
            constructor
            · intro hc; rw [hc] at hpcf; simp [GPc.fin] at hpcf
            · intro hc; omega
          · rw [Function.update_of_ne hj, h.started j]
        · exact h.err
        · have h1 : s.wg - 1 + ((Finset.range p.n).filter fun j => (Function.update s.pcs i pc j).fin = true).card
              = p.n := by
            rw [hcard']
            omega
          exact h1
        · intro j
          by_cases hj : j = i
          · subst hj
            unfold GOk
            simp only [St.goto, Function.update_self]
            rw [hpcdef]
            cases b with
            | true => simp only [if_true] at hg ⊢; exact hg
            | false => simp only [Bool.false_eq_true, if_false] at hg ⊢; exact hg
          · have := h.gos j
            unfold GOk at this ⊢
            simp only [St.goto, Function.update_of_ne hj]
            exact this
        · have hm := h.main
          unfold MOk at hm ⊢
          simp only [St.goto]
          cases hmm : s.main with
          | load =>
            simp only [hmm] at hm ⊢
            obtain ⟨a, b, c, d⟩ := hm
            have := d i hin
            rw [hnf] at this
            simp at this
          | _ => simp only [hmm] at hm ⊢; exact hm
        · exact h.crash
    | dying =>
      have hik := hid (by rw [hpc]; simp)
      simp only [hpc] at hs hg
      simp only [Option.some.injEq] at hs
      subst hs
      exact h.crashed (seq_none_of_job k h.bound h.checks ⟨i, hik, hg⟩)
    | gone => simp [hpc] at hs

theorem inv_steps {p : Prog C P} (hsh : p.Shares p) {m : ℕ} {s s' : St C P}
    (h : p.Steps m s s') : (∃ k, Inv p k s) → ∃ k, Inv p k s' := by
  induction h with
  | refl => exact id
  | tail h1 h2 ih =>
    intro h0
    obtain ⟨k, hk⟩ := ih h0
    rcases h2 with h2 | ⟨i, -, h2⟩
    · exact inv_main hk h2
    · exact ⟨k, inv_go hsh hk i h2⟩

end PoL.Sched
