import Verif.Spec.Report
import Verif.Proofs.Bench

/-!
# Times and printed lines: lemmas
-/

namespace PoL.Bench

open BP Verkle Pol

/-! ## Sequences of steps -/

theorem readings_work : ∀ (l s : List Step) (τ : ℕ → ℤ), (∀ x ∈ l, ∃ w, x = Step.work w) →
    readings (l ++ s) τ = readings s fun j => τ (l.length + j)
  | [], s, τ, _ => by simp
  | a :: l, s, τ, h => by
    obtain ⟨w, rfl⟩ := h a List.mem_cons_self
    rw [List.cons_append, readings, readings_work l s _ fun x hx => h x (List.mem_cons_of_mem _ hx), List.length_cons]
    congr 1
    funext j
    congr 1
    omega

theorem spent_append (P : Work → Bool) : ∀ (l s : List Step) (τ : ℕ → ℤ),
    spent P (l ++ s) τ = spent P l τ + spent P s fun j => τ (l.length + j)
  | [], s, τ => by simp [spent]
  | a :: l, s, τ => by
    have e : (fun j => τ (l.length + j + 1)) = fun j => τ ((a :: l).length + j) := by
      funext j
      rw [List.length_cons]
      congr 1
      omega
    cases a with
    | work w => rw [List.cons_append, spent, spent, spent_append P l s, e]; ring
    | now => rw [List.cons_append, spent, spent, spent_append P l s, e]

theorem free_append : ∀ (l s : List Step) (τ : ℕ → ℤ), FreeReadings (l ++ s) τ →
    FreeReadings l τ ∧ FreeReadings s fun j => τ (l.length + j)
  | [], s, τ, h => ⟨trivial, by simpa using h⟩
  | a :: l, s, τ, h => by
    have e : (fun j => τ (l.length + j + 1)) = fun j => τ ((a :: l).length + j) := by
      funext j
      rw [List.length_cons]
      congr 1
      omega
    cases a with
    | work w =>
      obtain ⟨h1, h2⟩ := free_append l s _ h
      exact ⟨h1, by rw [← e]; exact h2⟩
    | now =>
      obtain ⟨h1, h2⟩ := free_append l s _ h.2
      exact ⟨⟨h.1, h1⟩, by rw [← e]; exact h2⟩

theorem spent_none (P : Work → Bool) : ∀ (l : List Step) (τ : ℕ → ℤ), (∀ w, Step.work w ∈ l → ¬ P w) →
    spent P l τ = 0
  | [], _, _ => rfl
  | .work w :: l, τ, h => by
    rw [spent, if_neg (h w List.mem_cons_self), spent_none P l _ fun w hw => h w (List.mem_cons_of_mem _ hw), zero_add]
  | .now :: l, τ, h => by
    rw [spent, spent_none P l _ fun w hw => h w (List.mem_cons_of_mem _ hw)]

theorem spent_all (P : Work → Bool) : ∀ (l : List Step) (τ : ℕ → ℤ), (∀ x ∈ l, ∃ w, x = Step.work w ∧ P w) →
    spent P l τ = τ l.length - τ 0
  | [], _, _ => by simp [spent]
  | a :: l, τ, h => by
    obtain ⟨w, rfl, hw⟩ := h a List.mem_cons_self
    rw [spent, if_pos hw, spent_all P l _ fun x hx => h x (List.mem_cons_of_mem _ hx), List.length_cons]
    ring

theorem since_toInt {a b : ℤ} (h0 : 0 ≤ b - a) (h1 : b - a < 2 ^ 63) : (since a b).toInt = b - a := by
  unfold since
  rw [min_eq_right (by omega), max_eq_right (by omega)]
  exact Int64.toInt_ofInt_of_le (by omega) (by omega)

/-- The work between the first reading of the clock and the second in `ProveLiability`. -/
def proveMiddle (parallel : Bool) (L : ℕ) : List Step :=
  (List.range L).flatMap (fun i => [.work (if parallel then .spawn i else .rangeProof i), .work (.openAt i)])
    ++ [.work .openForClient] ++ (List.range (L - 1)).map (fun i => .work (.challenge i))

/-- The work at the beginning of `Verify`. -/
def verifyMiddle (parallel : Bool) (L : ℕ) : List Step :=
  [.work .compareRoot] ++ (List.range L).flatMap (fun i => .work (if parallel then .spawn i else .rangeProof i)
        :: if 0 < i ∨ i = L - 1 then [.work (.checkVertex i)] else []) ++ [.work .verifyPointProofs]

theorem proveSteps_eq (parallel : Bool) (L : ℕ) : proveSteps parallel L = [.work .get, .now] ++ (proveMiddle parallel L
    ++ [.now, .work .pointProofSum, .work .pointProofAggregate, .work .sumArgument, .now,
        .work .zeroCommit, .now, .work .equalities, .now, .work .wait, .now]) := by
  simp only [proveSteps, proveMiddle, List.append_assoc]

theorem verifySteps_eq (parallel : Bool) (L : ℕ) : verifySteps parallel L = [.now] ++ (verifyMiddle parallel L
    ++ [.now, .work .sumArgument, .now, .work .zeroCommit, .now, .work .equalities, .now,
        .work .wait, .work .verifyLiability, .now]) := by
  simp only [verifySteps, verifyMiddle, List.append_assoc, List.cons_append, List.nil_append]

/-- The kinds of work in the middle of `ProveLiability`. -/
theorem proveMiddle_mem {parallel : Bool} {L : ℕ} {x : Step} (h : x ∈ proveMiddle parallel L) : ∃ w, x = .work w ∧
    (w = .openForClient ∨ ∃ i, w = .spawn i ∨ w = .rangeProof i ∨ w = .openAt i ∨ w = .challenge i) := by
  unfold proveMiddle at h
  simp only [List.mem_append, List.mem_flatMap, List.mem_map, List.mem_cons, List.not_mem_nil, or_false] at h
  rcases h with (⟨i, -, rfl | rfl⟩ | rfl) | ⟨i, -, rfl⟩
  · refine ⟨_, rfl, Or.inr ⟨i, ?_⟩⟩
    cases parallel <;> simp
  · exact ⟨_, rfl, Or.inr ⟨i, by simp⟩⟩
  · exact ⟨_, rfl, Or.inl rfl⟩
  · exact ⟨_, rfl, Or.inr ⟨i, by simp⟩⟩

/-- The kinds of work at the beginning of `Verify`. -/
theorem verifyMiddle_mem {parallel : Bool} {L : ℕ} {x : Step} (h : x ∈ verifyMiddle parallel L) : ∃ w, x = .work w ∧
    (w = .compareRoot ∨ w = .verifyPointProofs ∨ ∃ i, w = .spawn i ∨ w = .rangeProof i ∨ w = .checkVertex i) := by
  unfold verifyMiddle at h
  simp only [List.mem_append, List.mem_flatMap, List.mem_cons, List.not_mem_nil, or_false] at h
  rcases h with (rfl | ⟨i, -, rfl | h⟩) | rfl
  · exact ⟨_, rfl, Or.inl rfl⟩
  · refine ⟨_, rfl, Or.inr (Or.inr ⟨i, ?_⟩)⟩
    cases parallel <;> simp
  · split_ifs at h
    · rw [List.mem_singleton] at h
      exact ⟨_, h, Or.inr (Or.inr ⟨i, by simp⟩)⟩
    · simp at h
  · exact ⟨_, rfl, Or.inr (Or.inl rfl)⟩

theorem prove_readings (parallel : Bool) (L : ℕ) (τ : ℕ → ℤ) : readings (proveSteps parallel L) τ =
    let n := (proveMiddle parallel L).length
    [τ 1, τ (n + 2), τ (n + 6), τ (n + 8), τ (n + 10), τ (n + 12)] := by
  rw [proveSteps_eq, List.cons_append, readings, List.cons_append, readings, List.nil_append,
    readings_work _ _ _ fun x hx => (proveMiddle_mem hx).imp fun _ h => h.1]
  simp only [readings, Nat.add_assoc, Nat.zero_add, Nat.add_zero]

theorem verify_readings (parallel : Bool) (L : ℕ) (τ : ℕ → ℤ) : readings (verifySteps parallel L) τ =
    let n := (verifyMiddle parallel L).length
    [τ 0, τ (n + 1), τ (n + 3), τ (n + 5), τ (n + 7), τ (n + 10)] := by
  rw [verifySteps_eq, List.cons_append, readings, List.nil_append,
    readings_work _ _ _ fun x hx => (verifyMiddle_mem hx).imp fun _ h => h.1]
  simp only [readings, Nat.add_assoc, Nat.zero_add, Nat.add_zero]

theorem proveSteps_length (parallel : Bool) (L : ℕ) : (proveSteps parallel L).length = (proveMiddle parallel L).length + 13 := by
  rw [proveSteps_eq]
  simp only [List.length_append, List.length_cons, List.length_nil]
  omega

theorem verifySteps_length (parallel : Bool) (L : ℕ) : (verifySteps parallel L).length = (verifyMiddle parallel L).length + 11 := by
  rw [verifySteps_eq]
  simp only [List.length_append, List.length_cons, List.length_nil]
  omega

/-! ## What is recorded -/

/-- The three times returned by `ProveLiability`. -/
theorem proveTimes_eq (parallel : Bool) (L : ℕ) (τ : ℕ → ℤ) : proveTimes parallel L τ =
    let n := (proveMiddle parallel L).length
    some [since (τ (n + 2)) (τ (n + 6)), since (τ (n + 8)) (τ (n + 10)), since (τ 1) (τ (n + 12))] := by
  unfold proveTimes
  rw [prove_readings]
  rfl

theorem verifyTimes_eq (parallel : Bool) (L : ℕ) (τ : ℕ → ℤ) : verifyTimes parallel L τ =
    let n := (verifyMiddle parallel L).length
    some ([since (τ (n + 1)) (τ (n + 3)), since (τ (n + 5)) (τ (n + 7))], since (τ 0) (τ (n + 10))) := by
  unfold verifyTimes
  rw [verify_readings]
  rfl

/-- What one iteration appends. -/
structure Entry where
  sumProve : Int64
  eqProve : Int64
  prove : Int64
  sumVerify : Int64
  eqVerify : Int64
  verify : Int64
  size : Int64

def Measurement.append (m : Measurement) (es : List Entry) : Measurement :=
  { m with
    proofTime := m.proofTime ++ es.map Entry.prove
    verifyTime := m.verifyTime ++ es.map Entry.verify
    equalityTimeProve := m.equalityTimeProve ++ es.map Entry.eqProve
    sumTimeProve := m.sumTimeProve ++ es.map Entry.sumProve
    equalityTimeVerify := m.equalityTimeVerify ++ es.map Entry.eqVerify
    sumTimeVerify := m.sumTimeVerify ++ es.map Entry.sumVerify
    proofSize := m.proofSize ++ es.map Entry.size }

/-- The entry of an iteration. -/
def entry (parallel : Bool) (L : ℕ) (p v : ℕ → ℤ) (size : Int64) : Entry :=
  let n := (proveMiddle parallel L).length
  let k := (verifyMiddle parallel L).length
  ⟨since (p (n + 2)) (p (n + 6)), since (p (n + 8)) (p (n + 10)), since (p 1) (p (n + 12)),
    since (v (k + 1)) (v (k + 3)), since (v (k + 5)) (v (k + 7)), since (v 0) (v (k + 10)), size⟩

theorem record_eq (parallel : Bool) (L : ℕ) (p v : ℕ → ℤ) (size : Int64) (m : Measurement) :
    record parallel L p v size m = some (m.append [entry parallel L p v size]) := by
  unfold record
  rw [proveTimes_eq, verifyTimes_eq]
  rfl

theorem append_append (m : Measurement) (a b : List Entry) : (m.append a).append b = m.append (a ++ b) := by
  simp [Measurement.append, List.append_assoc]

theorem foldlM_record (parallel : Bool) (path : ℕ → Option (List ℕ)) (sizes : List Int64) (c : Clocks) (m : Measurement) :
    ∀ (l : List ℕ) (r : Measurement),
    (l.foldlM (fun m i => do record parallel (← path i).length (c.prove i) (c.verify i) (← sizes[i]?) m) m = some r ↔
      ∃ es, l.mapM (fun i => do return entry parallel (← path i).length (c.prove i) (c.verify i) (← sizes[i]?)) = some es ∧
        r = m.append es) := by
  intro l
  induction l generalizing m with
  | nil =>
    intro r
    simp only [List.foldlM_nil, List.mapM_nil, Option.pure_def, Option.some.injEq, exists_eq_left', Measurement.append,
      List.map_nil, List.append_nil]
    exact ⟨Eq.symm, Eq.symm⟩
  | cons i l ih =>
    intro r
    rw [List.foldlM_cons, List.mapM_cons]
    cases hp : path i with
    | none => simp
    | some q =>
      cases hs : sizes[i]? with
      | none => simp
      | some z =>
        simp only [Option.bind_eq_bind, Option.bind_some, record_eq, Option.pure_def]
        have := ih (m.append [entry parallel q.length (c.prove i) (c.verify i) z]) r
        simp only [Option.bind_eq_bind, record_eq, Option.pure_def] at this
        rw [this]
        constructor
        · rintro ⟨es, h1, h2⟩
          exact ⟨_ :: es, by rw [h1]; rfl, by rw [h2, append_append]; rfl⟩
        · rintro ⟨es, h1, h2⟩
          obtain ⟨es', h3, h4⟩ := Option.bind_eq_some_iff.1 h1
          refine ⟨es', h3, ?_⟩
          rw [Option.some.injEq] at h4
          rw [h2, ← h4, append_append]
          rfl

/-! ## The times recorded -/

section

variable {parallel : Bool} {L : ℕ} {p v : ℕ → ℤ} {size : Int64}

/-- What a good clock says about the readings of `ProveLiability`. -/
theorem GoodClock.prove (h : GoodClock (proveSteps parallel L) p) :
    let n := (proveMiddle parallel L).length
    p 2 = p 1 ∧ p (n + 3) = p (n + 2) ∧ p (n + 7) = p (n + 6) ∧ p (n + 9) = p (n + 8) ∧ p (n + 11) = p (n + 10) ∧
      p (n + 12) - p 0 < 2 ^ 63 := by
  intro n
  have hf := h.free
  rw [proveSteps_eq] at hf
  obtain ⟨h1, hf⟩ := free_append _ _ _ hf
  obtain ⟨-, hf⟩ := free_append _ _ _ hf
  have hl := h.fits
  rw [proveSteps_length] at hl
  have hm := h.mono (show n + 12 ≤ (proveMiddle parallel L).length + 13 by omega)
  simp only [FreeReadings, List.length_cons, List.length_nil, Nat.zero_add, Nat.add_zero, and_true] at h1 hf
  have e : ∀ j, 1 + 1 + (n + j) = n + (j + 2) := fun j => by omega
  obtain ⟨q1, q2, q3, q4, -⟩ := hf
  simp only [Nat.add_assoc] at q1 q2 q3 q4
  refine ⟨h1, ?_, ?_, ?_, ?_, by omega⟩
  · rw [show n + 3 = 1 + (1 + (n + 1)) by omega, show n + 2 = 1 + (1 + n) by omega]; exact q1
  · rw [show n + 7 = 1 + (1 + (n + 5)) by omega, show n + 6 = 1 + (1 + (n + 4)) by omega]; exact q2
  · rw [show n + 9 = 1 + (1 + (n + 7)) by omega, show n + 8 = 1 + (1 + (n + 6)) by omega]; exact q3
  · rw [show n + 11 = 1 + (1 + (n + 9)) by omega, show n + 10 = 1 + (1 + (n + 8)) by omega]; exact q4

theorem GoodClock.verify (h : GoodClock (verifySteps parallel L) v) :
    let n := (verifyMiddle parallel L).length
    v 1 = v 0 ∧ v (n + 2) = v (n + 1) ∧ v (n + 4) = v (n + 3) ∧ v (n + 6) = v (n + 5) ∧ v (n + 8) = v (n + 7) ∧
      v (n + 10) - v 0 < 2 ^ 63 := by
  intro n
  have hf := h.free
  rw [verifySteps_eq] at hf
  obtain ⟨h1, hf⟩ := free_append _ _ _ hf
  obtain ⟨-, hf⟩ := free_append _ _ _ hf
  have hl := h.fits
  rw [verifySteps_length] at hl
  have hm := h.mono (show n + 10 ≤ (verifyMiddle parallel L).length + 11 by omega)
  simp only [FreeReadings, List.length_cons, List.length_nil, Nat.zero_add, Nat.add_zero, and_true] at h1 hf
  obtain ⟨q1, q2, q3, q4, -⟩ := hf
  simp only [Nat.add_assoc] at q1 q2 q3 q4
  refine ⟨h1, ?_, ?_, ?_, ?_, by omega⟩
  · rw [Nat.add_comm n 2, Nat.add_comm n 1, show 2 + n = 1 + (n + 1) by omega]; exact q1
  · rw [show n + 4 = 1 + (n + 3) by omega, show v (n + 3) = v (1 + (n + 2)) by congr 1; omega]; exact q2
  · rw [show n + 6 = 1 + (n + 5) by omega, show v (n + 5) = v (1 + (n + 4)) by congr 1; omega]; exact q3
  · rw [show n + 8 = 1 + (n + 7) by omega, show v (n + 7) = v (1 + (n + 6)) by congr 1; omega]; exact q4

/-- The time spent in the parts of `ProveLiability`, by readings. -/
theorem spent_prove (P : Work → Bool) : spent P (proveSteps parallel L) p =
    let n := (proveMiddle parallel L).length
    (if P .get then p 1 - p 0 else 0) + (spent P (proveMiddle parallel L) fun j => p (2 + j))
      + (if P .pointProofSum then p (n + 4) - p (n + 3) else 0) + (if P .pointProofAggregate then p (n + 5) - p (n + 4) else 0)
      + (if P .sumArgument then p (n + 6) - p (n + 5) else 0) + (if P .zeroCommit then p (n + 8) - p (n + 7) else 0)
      + (if P .equalities then p (n + 10) - p (n + 9) else 0) + (if P .wait then p (n + 12) - p (n + 11) else 0) := by
  obtain ⟨n, hn⟩ : ∃ n, n = (proveMiddle parallel L).length := ⟨_, rfl⟩
  rw [← hn]
  rw [proveSteps_eq, spent_append, spent_append]
  simp only [spent, List.length_cons, List.length_nil, Nat.zero_add, add_zero]
  have e : ∀ j k, j = k + 2 → p (1 + 1 + (n + k)) = p (n + j) := fun j k h => by congr 1; omega
  rw [← hn]
  simp only [Nat.reduceAdd] at e ⊢
  simp only [← e 3 1 rfl, ← e 4 2 rfl, ← e 5 3 rfl, ← e 6 4 rfl, ← e 7 5 rfl, ← e 8 6 rfl, ← e 9 7 rfl, ← e 10 8 rfl,
    ← e 11 9 rfl, ← e 12 10 rfl]
  ring

theorem spent_verify (P : Work → Bool) : spent P (verifySteps parallel L) v =
    let n := (verifyMiddle parallel L).length
    (spent P (verifyMiddle parallel L) fun j => v (1 + j))
      + (if P .sumArgument then v (n + 3) - v (n + 2) else 0) + (if P .zeroCommit then v (n + 5) - v (n + 4) else 0)
      + (if P .equalities then v (n + 7) - v (n + 6) else 0) + (if P .wait then v (n + 9) - v (n + 8) else 0)
      + (if P .verifyLiability then v (n + 10) - v (n + 9) else 0) := by
  obtain ⟨n, hn⟩ : ∃ n, n = (verifyMiddle parallel L).length := ⟨_, rfl⟩
  rw [← hn]
  rw [verifySteps_eq, spent_append, spent_append]
  simp only [spent, List.length_cons, List.length_nil, add_zero, zero_add]
  have e : ∀ j k, j = k + 1 → v (1 + (n + k)) = v (n + j) := fun j k h => by congr 1; omega
  rw [← hn]
  simp only [Nat.reduceAdd] at e ⊢
  simp only [← e 2 1 rfl, ← e 3 2 rfl, ← e 4 3 rfl, ← e 5 4 rfl, ← e 6 5 rfl, ← e 7 6 rfl, ← e 8 7 rfl, ← e 9 8 rfl,
    ← e 10 9 rfl]
  ring

/-- The times recorded for `ProveLiability`. -/
theorem entry_prove (h : GoodClock (proveSteps parallel L) p) :
    (entry parallel L p v size).prove.toInt = spent (fun w => w ≠ .get) (proveSteps parallel L) p ∧
      (entry parallel L p v size).eqProve.toInt = spent (fun w => w = .equalities) (proveSteps parallel L) p ∧
      (entry parallel L p v size).sumProve.toInt
        = spent (fun w => w = .pointProofSum ∨ w = .pointProofAggregate ∨ w = .sumArgument) (proveSteps parallel L) p := by
  obtain ⟨q1, q2, q3, q4, q5, q6⟩ := h.prove
  have hm := h.mono
  obtain ⟨n, hn⟩ : ∃ n, n = (proveMiddle parallel L).length := ⟨_, rfl⟩
  have m01 := hm (show 0 ≤ 1 by omega)
  have m12 := hm (show 1 ≤ n + 2 by omega)
  have m26 := hm (show n + 2 ≤ n + 6 by omega)
  have m68 := hm (show n + 6 ≤ n + 8 by omega)
  have m810 := hm (show n + 8 ≤ n + 10 by omega)
  have m1012 := hm (show n + 10 ≤ n + 12 by omega)
  unfold entry
  rw [spent_prove, spent_prove, spent_prove]
  rw [← hn] at q2 q3 q4 q5 q6 ⊢
  dsimp only
  have none : ∀ P : Work → Bool, P .openForClient = false → (∀ i, P (.spawn i) = false ∧ P (.rangeProof i) = false ∧
      P (.openAt i) = false ∧ P (.challenge i) = false) → (spent P (proveMiddle parallel L) fun j => p (2 + j)) = 0 := by
    intro P h1 h2
    refine spent_none P _ _ fun w hw => ?_
    obtain ⟨w', e, h⟩ := proveMiddle_mem hw
    cases e
    rcases h with rfl | ⟨i, rfl | rfl | rfl | rfl⟩
    · simp [h1]
    all_goals simp [h2 i]
  refine ⟨?_, ?_, ?_⟩
  · rw [spent_all _ _ _ fun x hx => ?_, ← hn, since_toInt (by omega) (by omega)]
    · simp only [ne_eq, not_true_eq_false, decide_false, reduceCtorEq, not_false_eq_true, decide_true, if_true, Nat.add_zero,
        Nat.add_comm 2 n, Bool.false_eq_true, if_false]
      omega
    · obtain ⟨w', e, h⟩ := proveMiddle_mem hx
      refine ⟨w', e, ?_⟩
      rcases h with rfl | ⟨i, rfl | rfl | rfl | rfl⟩ <;> simp
  · rw [none _ (by simp) (by simp), since_toInt (by omega) (by omega)]
    simp
    omega
  · rw [none _ (by simp) (by simp), since_toInt (by omega) (by omega)]
    simp
    omega

/-- The times recorded for `Verify`. -/
theorem entry_verify (h : GoodClock (verifySteps parallel L) v) :
    (entry parallel L p v size).verify.toInt = spent (fun _ => true) (verifySteps parallel L) v ∧
      (entry parallel L p v size).eqVerify.toInt = spent (fun w => w = .equalities) (verifySteps parallel L) v ∧
      (entry parallel L p v size).sumVerify.toInt = spent (fun w => w = .sumArgument) (verifySteps parallel L) v := by
  obtain ⟨q1, q2, q3, q4, q5, q6⟩ := h.verify
  have hm := h.mono
  obtain ⟨n, hn⟩ : ∃ n, n = (verifyMiddle parallel L).length := ⟨_, rfl⟩
  have m01 := hm (show 0 ≤ n + 1 by omega)
  have m12 := hm (show n + 1 ≤ n + 3 by omega)
  have m26 := hm (show n + 3 ≤ n + 5 by omega)
  have m68 := hm (show n + 5 ≤ n + 7 by omega)
  have m810 := hm (show n + 7 ≤ n + 10 by omega)
  unfold entry
  rw [spent_verify, spent_verify, spent_verify]
  rw [← hn] at q2 q3 q4 q5 q6 ⊢
  dsimp only
  have none : ∀ P : Work → Bool, P .compareRoot = false → P .verifyPointProofs = false → (∀ i, P (.spawn i) = false ∧
      P (.rangeProof i) = false ∧ P (.checkVertex i) = false) → (spent P (verifyMiddle parallel L) fun j => v (1 + j)) = 0 := by
    intro P h1 h1' h2
    refine spent_none P _ _ fun w hw => ?_
    obtain ⟨w', e, h⟩ := verifyMiddle_mem hw
    cases e
    rcases h with rfl | rfl | ⟨i, rfl | rfl | rfl⟩
    · simp [h1]
    · simp [h1']
    all_goals simp [h2 i]
  refine ⟨?_, ?_, ?_⟩
  · rw [spent_all _ _ _ fun x hx => ?_, ← hn, since_toInt (by omega) (by omega)]
    · simp only [if_true, Nat.add_zero, Nat.add_comm 1 n]
      omega
    · obtain ⟨w', e, h⟩ := verifyMiddle_mem hx
      exact ⟨w', e, rfl⟩
  · rw [none _ (by simp) (by simp) (by simp), since_toInt (by omega) (by omega)]
    simp
    omega
  · rw [none _ (by simp) (by simp) (by simp), since_toInt (by omega) (by omega)]
    simp
    omega

end

/-! ## Bounds -/

theorem spent_bounds (P : Work → Bool) : ∀ (s : List Step) (τ : ℕ → ℤ), Monotone τ →
    0 ≤ spent P s τ ∧ spent P s τ ≤ τ s.length - τ 0
  | [], τ, _ => by simp [spent]
  | a :: s, τ, h => by
    obtain ⟨h1, h2⟩ := spent_bounds P s (fun j => τ (j + 1)) fun i j hij => h (by omega)
    have h01 := h (show 0 ≤ 1 by omega)
    cases a with
    | work w =>
      rw [spent, List.length_cons]
      simp only [Nat.zero_add] at h1 h2
      split_ifs <;> constructor <;> omega
    | now =>
      rw [spent, List.length_cons]
      simp only [Nat.zero_add] at h1 h2
      constructor <;> omega

theorem spent_mono {P Q : Work → Bool} (hPQ : ∀ w, P w = true → Q w = true) : ∀ (s : List Step) (τ : ℕ → ℤ), Monotone τ →
    spent P s τ ≤ spent Q s τ
  | [], τ, _ => by simp [spent]
  | a :: s, τ, h => by
    have h1 := spent_mono hPQ s (fun j => τ (j + 1)) fun i j hij => h (by omega)
    have h01 := h (show 0 ≤ 1 by omega)
    cases a with
    | work w =>
      rw [spent, spent]
      have := hPQ w
      split_ifs <;> first | omega | simp_all
    | now => exact h1

/-- Work of two kinds that have nothing in common. -/
theorem spent_or {P Q : Work → Bool} (hPQ : ∀ w, P w = true → Q w = false) : ∀ (s : List Step) (τ : ℕ → ℤ),
    spent (fun w => P w || Q w) s τ = spent P s τ + spent Q s τ
  | [], τ => by simp [spent]
  | a :: s, τ => by
    have h1 := spent_or hPQ s (fun j => τ (j + 1))
    cases a with
    | work w =>
      rw [spent, spent, spent, h1]
      have := hPQ w
      cases hP : P w <;> cases hQ : Q w <;> simp_all <;> ring
    | now => exact h1

end PoL.Bench
