import Verif.Spec.PolChecks
import Verif.Proofs.Vec

/-! `LiabilityProof.Verify` is the conjunction of its checks. -/

set_option linter.unusedSectionVars false

namespace PoL.Pol
open BP Spec

variable {G1 G2 GT : Type} [AddCommGroup G1] [Module Zr G1] [AddCommGroup G2] [Module Zr G2]
  [AddCommGroup GT] [Module Zr GT] [DecidableEq G1] [DecidableEq GT]

/-- What round `i` of `n` must find. -/
def RoundOk (E : Curve G1 G2 GT) (pp : PublicParams G1 G2 GT) (lp : LiabilityProof G1) (n i : ℕ) : Prop :=
  (i + 1 < n → i + 1 < lp.V.length) ∧
  (∃ rp C, lp.rangeProofs[i]? = some rp ∧ lp.V[i]? = some C ∧ verifyRange E pp.RPPP rp C = some true) ∧
  (i + 1 = n → lp.checkCommitmentToLeafVertex E i = some true) ∧
  (i + 1 ≠ n → 0 < i → lp.checkCommitmentToInnerVertex E i = some true)

theorem verifyLoop_err (E : Curve G1 G2 GT) (lp : LiabilityProof G1) (pp : PublicParams G1 G2 GT) (n : ℕ) :
    ∀ rest i, lp.verifyLoop E pp n i rest true ≠ some (some false) := by
  intro rest
  induction rest with
  | zero => intro i; simp [LiabilityProof.verifyLoop]
  | succ rest ih =>
    intro i h
    rw [LiabilityProof.verifyLoop] at h
    split_ifs at h
    · obtain ⟨rp, -, h⟩ := obind_elim h
      obtain ⟨C, -, h⟩ := obind_elim h
      obtain ⟨ok, -, h⟩ := obind_elim h
      obtain ⟨b, -, h⟩ := obind_elim h
      simp only [Bool.true_or] at h
      split_ifs at h
      · simp at h
      · exact ih _ h
    · obtain ⟨rp, -, h⟩ := obind_elim h
      obtain ⟨C, -, h⟩ := obind_elim h
      obtain ⟨ok, -, h⟩ := obind_elim h
      obtain ⟨b, -, h⟩ := obind_elim h
      simp only [Bool.true_or] at h
      split_ifs at h
      · simp at h
      · exact ih _ h
    · obtain ⟨rp, -, h⟩ := obind_elim h
      obtain ⟨C, -, h⟩ := obind_elim h
      obtain ⟨ok, -, h⟩ := obind_elim h
      simp only [Bool.true_or] at h
      exact ih _ h

theorem verifyLoop_iff (E : Curve G1 G2 GT) (lp : LiabilityProof G1) (pp : PublicParams G1 G2 GT) (n : ℕ) :
    ∀ rest i, lp.verifyLoop E pp n i rest false = some (some false) ↔
      ∀ j, i ≤ j → j < i + rest → RoundOk E pp lp n j := by
  intro rest
  induction rest with
  | zero =>
    intro i
    simp only [LiabilityProof.verifyLoop, true_iff]
    intro j h1 h2
    omega
  | succ rest ih =>
    intro i
    have hsplit : (∀ j, i ≤ j → j < i + (rest + 1) → RoundOk E pp lp n j) ↔
        RoundOk E pp lp n i ∧ ∀ j, i + 1 ≤ j → j < i + 1 + rest → RoundOk E pp lp n j := by
      constructor
      · intro h
        exact ⟨h i le_rfl (by omega), fun j h1 h2 => h j (by omega) (by omega)⟩
      · rintro ⟨h1, h2⟩ j h3 h4
        rcases Nat.eq_or_lt_of_le h3 with rfl | h3
        · exact h1
        · exact h2 j h3 (by omega)
    rw [hsplit, ← ih (i + 1), LiabilityProof.verifyLoop]
    constructor
    · intro h
      split_ifs at h with h0 h1 h2
      · obtain ⟨rp, hrp, h⟩ := obind_elim h
        obtain ⟨C, hC, h⟩ := obind_elim h
        obtain ⟨ok, hok, h⟩ := obind_elim h
        obtain ⟨b, hb, h⟩ := obind_elim h
        split_ifs at h with hb2
        · simp at h
        · cases ok with
          | false => exact absurd h (verifyLoop_err E lp pp n _ _)
          | true =>
            refine ⟨⟨fun hlt => by omega, ⟨rp, C, hrp, hC, hok⟩, fun _ => ?_, fun hc => absurd h1 hc⟩, h⟩
            cases b
            · simp at hb2
            · exact hb
      · obtain ⟨rp, hrp, h⟩ := obind_elim h
        obtain ⟨C, hC, h⟩ := obind_elim h
        obtain ⟨ok, hok, h⟩ := obind_elim h
        obtain ⟨b, hb, h⟩ := obind_elim h
        split_ifs at h with hb2
        · simp at h
        · cases ok with
          | false => exact absurd h (verifyLoop_err E lp pp n _ _)
          | true =>
            refine ⟨⟨fun hlt => by omega, ⟨rp, C, hrp, hC, hok⟩, fun hc => absurd hc h1, fun _ _ => ?_⟩, h⟩
            cases b
            · simp at hb2
            · exact hb
      · obtain ⟨rp, hrp, h⟩ := obind_elim h
        obtain ⟨C, hC, h⟩ := obind_elim h
        obtain ⟨ok, hok, h⟩ := obind_elim h
        cases ok with
        | false => exact absurd h (verifyLoop_err E lp pp n _ _)
        | true =>
          exact ⟨⟨fun hlt => by omega, ⟨rp, C, hrp, hC, hok⟩, fun hc => absurd hc h1, fun _ hc => absurd hc h2⟩, h⟩
    · rintro ⟨⟨h1, ⟨rp, C, hrp, hC, hok⟩, h2, h3⟩, h⟩
      rw [if_neg (by omega)]
      refine obind_step hrp (obind_step hC (obind_step hok ?_))
      simp only [Bool.not_true, Bool.or_false]
      split_ifs with h4 h5
      · exact obind_step (h2 h4) (by simpa using h)
      · exact obind_step (h3 h4 h5) (by simpa using h)
      · exact h

theorem checkLeaf_iff (E : Curve G1 G2 GT) (lp : LiabilityProof G1) (i : ℕ) :
    lp.checkCommitmentToLeafVertex E i = some true ↔
      0 < i ∧ ∃ C d, lp.V[i]? = some C ∧ lp.digests[i - 1]? = some d ∧ IsHashOf E (E.g1Bytes C) d := by
  unfold LiabilityProof.checkCommitmentToLeafVertex IsHashOf
  constructor
  · intro h
    obtain ⟨C, hC, h⟩ := obind_elim h
    obtain ⟨e, he, h⟩ := obind_elim h
    split_ifs at h with h0
    obtain ⟨d, hd, h⟩ := obind_elim h
    simp only [Option.pure_def, Option.some.injEq, decide_eq_true_eq] at h
    exact ⟨by omega, C, d, hC, hd, by rw [h]; exact he⟩
  · rintro ⟨h0, C, d, hC, hd, he⟩
    refine obind_step hC (obind_step he ?_)
    rw [if_neg (by omega)]
    exact obind_step hd (by simp)

theorem checkInner_iff (E : Curve G1 G2 GT) (lp : LiabilityProof G1) (i : ℕ) :
    lp.checkCommitmentToInnerVertex E i = some true ↔
      0 < i ∧ ∃ C D d, lp.V[i]? = some C ∧ lp.W[i]? = some D ∧ lp.digests[i - 1]? = some d ∧
        IsHashOf E (E.g1Bytes C ++ E.g1Bytes D) d := by
  unfold LiabilityProof.checkCommitmentToInnerVertex IsHashOf
  constructor
  · intro h
    obtain ⟨C, hC, h⟩ := obind_elim h
    obtain ⟨D, hD, h⟩ := obind_elim h
    obtain ⟨e, he, h⟩ := obind_elim h
    split_ifs at h with h0
    obtain ⟨d, hd, h⟩ := obind_elim h
    simp only [Option.pure_def, Option.some.injEq, decide_eq_true_eq] at h
    exact ⟨by omega, C, D, d, hC, hD, hd, by rw [h]; exact he⟩
  · rintro ⟨h0, C, D, d, hC, hD, hd, he⟩
    refine obind_step hC (obind_step hD (obind_step he ?_))
    rw [if_neg (by omega)]
    exact obind_step hd (by simp)

theorem mapM_range_get {α : Type} (l : List α) (o : ℕ) : ∀ n, o + n ≤ l.length →
    (List.range n).mapM (fun i => l[i + o]?) = some ((l.drop o).take n) := by
  intro n hn
  induction n with
  | zero => rfl
  | succ n ih =>
    rw [List.range_succ, List.mapM_append, ih (by omega)]
    have h1 : (l.drop o)[n]? = some (l[n + o]'(by omega)) := by
      rw [List.getElem?_drop, List.getElem?_eq_getElem (by omega)]
      congr 2
      omega
    rw [List.take_add_one, h1]
    simp only [List.mapM_cons, List.mapM_nil]
    rw [List.getElem?_eq_getElem (by omega)]
    rfl

theorem equalitiesOf_eq (E : Curve G1 G2 GT) (pp : PublicParams G1 G2 GT) (path : List ℕ) (V : List G1)
    (zero : G1) (padding : ℕ) (h : path.length ≤ V.length) (h0 : 0 < path.length) :
    equalitiesOf E pp.POEPP pp.fanout path V zero padding = some (pathEqualities E pp path V zero padding) := by
  unfold equalitiesOf pathEqualities
  have h1 := mapM_range_get V 0 (path.length - 1) (by omega)
  have h2 := mapM_range_get V 1 (path.length - 1) (by omega)
  simp only [Nat.add_zero, List.drop_zero] at h1
  exact obind_step h1 (obind_step h2 rfl)

theorem verify_iff (E : Curve G1 G2 GT) (lp : LiabilityProof G1) (pp : PublicParams G1 G2 GT) (id : Str)
    (V W : G1) (id2path : Str → Option (List ℕ)) :
    lp.verify E pp id V W id2path = some true ↔ ∃ path, id2path id = some path ∧ Accepted E pp path V W lp := by
  unfold LiabilityProof.verify
  constructor
  · intro h
    obtain ⟨path, hpath, h⟩ := obind_elim h
    refine ⟨path, hpath, ?_⟩
    split_ifs at h with hlen
    · simp at h
    rw [not_or, not_not, not_not] at hlen
    obtain ⟨V0, hV0, h⟩ := obind_elim h
    split_ifs at h with hV
    · simp at h
    obtain ⟨W0, hW0, h⟩ := obind_elim h
    split_ifs at h with hW
    · simp at h
    rw [not_not] at hV hW
    rw [hV] at hV0
    rw [hW] at hW0
    obtain ⟨res, hloop, h⟩ := obind_elim h
    cases res with
    | none => simp at h
    | some err =>
      obtain ⟨b1, hb1, h⟩ := obind_elim h
      cases b1 with
      | false => simp at h
      | true =>
      obtain ⟨b2, hb2, h⟩ := obind_elim h
      cases b2 with
      | false => simp at h
      | true =>
      obtain ⟨zero, hzero, h⟩ := obind_elim h
      obtain ⟨padded, hpad, h⟩ := obind_elim h
      obtain ⟨eqs, heqs, h⟩ := obind_elim h
      obtain ⟨b3, hb3, h⟩ := obind_elim h
      cases b3 with
      | false => simp at h
      | true =>
      cases err with
      | true => simp at h
      | false =>
      obtain ⟨C, hC, h⟩ := obind_elim h
      obtain ⟨i, hi, h⟩ := obind_elim h
      rw [verifyLoop_iff] at hloop
      have hW1 : 0 < lp.W.length := by
        rcases Nat.eq_zero_or_pos lp.W.length with h0 | h0
        · rw [List.length_eq_zero_iff.1 h0] at hW0; simp at hW0
        · exact h0
      have hr : ∀ j < path.length, RoundOk E pp lp path.length j := fun j hj => hloop j (by omega) (by omega)
      have hlenV : path.length ≤ lp.V.length := by
        have h2 := (hr (path.length - 2) (by omega)).1 (by omega)
        omega
      refine ⟨hlen.1, hlen.2, hlenV, hV0, hW0, fun j hj => (hr j hj).2.1, fun j hj1 hj2 => ?_, ?_, hb1, hb2,
        ⟨zero, padded, by rw [← intToZr_zero]; exact hzero, hpad, ?_⟩, ⟨C, i, hC, hi, h⟩⟩
      · exact ((checkInner_iff E lp j).1 ((hr j (by omega)).2.2.2 (by omega) hj1)).2
      · have h2 := ((checkLeaf_iff E lp _).1 ((hr (path.length - 1) (by omega)).2.2.1 (by omega))).2
        exact h2
      · rw [equalitiesOf_eq E pp path lp.V zero _ hlenV (by omega), Option.some.injEq] at heqs
        rw [heqs]; exact hb3
  · rintro ⟨path, hpath, hacc⟩
    obtain ⟨zero, padded, hzero, hpad, heq⟩ := hacc.equalities
    obtain ⟨C, i, hC, hi, hv⟩ := hacc.liability
    have h1 := hacc.len_W
    have hW1 : 0 < lp.W.length := by
      rcases Nat.eq_zero_or_pos lp.W.length with h0 | h0
      · have := hacc.root_W
        rw [List.length_eq_zero_iff.1 h0] at this; simp at this
      · exact h0
    refine obind_step hpath ?_
    rw [if_neg (by rw [not_or, not_not, not_not]; exact ⟨hacc.len_W, hacc.len_digests⟩)]
    refine obind_step hacc.root_V ?_
    rw [if_neg (by simp)]
    refine obind_step hacc.root_W ?_
    rw [if_neg (by simp)]
    have hloop : lp.verifyLoop E pp path.length 0 path.length false = some (some false) := by
      rw [verifyLoop_iff]
      intro j _ hj
      rw [Nat.zero_add] at hj
      have hlv := hacc.len_V
      refine ⟨fun h => by omega, hacc.range_proofs j hj, fun h => ?_, fun h1 h2 => ?_⟩
      · rw [checkLeaf_iff]
        have := hacc.leaf_digest
        rw [show path.length - 1 = j by omega, show path.length - 2 = j - 1 by omega] at this
        exact ⟨by omega, this⟩
      · rw [checkInner_iff]
        exact ⟨h2, hacc.inner_digests j h2 (by omega)⟩
    refine obind_step hloop (obind_step hacc.point_proof ?_)
    rw [if_neg (by simp)]
    refine obind_step hacc.sum_argument ?_
    rw [if_neg (by simp)]
    have hz : intToZr 0 = 0 := by simp [intToZr]
    refine obind_step (by rw [hz]; exact hzero) (obind_step hpad
      (obind_step (equalitiesOf_eq E pp path lp.V zero _ hacc.len_V (by omega)) (obind_step heq ?_)))
    rw [if_neg (by simp), if_neg (by simp)]
    exact obind_step hC (obind_step hi hv)

end PoL.Pol
