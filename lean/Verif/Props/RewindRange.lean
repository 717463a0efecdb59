import Verif.Proofs.RewindRange
import Verif.Props.RangeSound

/-! # C84: soundness error of the iterated reduction and of the range proof -/

set_option linter.unusedSectionVars false

namespace PoL.Props

open BP Finset

/-- **C84**, iterated reduction.  There are an extractor and a finder of relations, both computing from scalars only, such
that every prover, whatever its computing power, that is accepted for more than a fraction `3k/(order-1)` of the sequences
of non-zero challenges can be rewound to transcripts from which they get an opening of `V`, and a non-trivial relation
between the generators unless the prover's final values are those of the opening's multilinear polynomial. -/
theorem C84_reduction_soundness_error :
    ∃ (ext : ITree Unit → List Zr) (rels : ITree Unit → List (List Zr)),
    ∀ (A : Type) [AddCommGroup A] [Module Zr A] (k : ℕ) (V : A) (g : List A) (p : IrProver A),
      g.length = 2 ^ k → 3 * k / ((order : ℚ) - 1) < ((p.wins k V g).ncard : ℚ) / ((order : ℚ) - 1) ^ k →
      ∃ t : ITree A, t.Of p ∧ (ext t.scalars).length = 2 ^ k ∧ V = dot (ext t.scalars) g ∧
        (∀ r ∈ rels t.scalars, r.length = 2 ^ k ∧ dot r g = 0) ∧
        ((∃ r ∈ rels t.scalars, ∃ y ∈ r, y ≠ 0) ∨
          ∀ q ∈ t.paths, q.2 = multilinear (ext t.scalars) (q.1.map Prod.fst).reverse) := by
  obtain ⟨ext, rels, hC⟩ := C15_iterated_reduction_special_sound
  refine ⟨ext, rels, fun A _ _ k V g p hg hw => ?_⟩
  obtain ⟨t, hwf, hof, hacc⟩ := p.tree_of_wins k V g hw
  exact ⟨t, hof, hC A k V g t hg hwf hacc⟩

/-- **C84**, range proof.  There are an extractor and a finder of relations, both computing from scalars only, such that every
prover, whatever its computing power, that is accepted for more than a fraction `rangeError k` of the challenges can be
rewound to transcripts from which they get an opening of `V`, and a non-trivial relation between the generators unless all
values of the opening are below `2^63`. -/
theorem C84_range_soundness_error :
    ∃ (ext : RTree Unit → Zr × (ℕ → Zr)) (rels : ℕ → RTree Unit → List RangeRel),
    ∀ (A : Type) [AddCommGroup A] [Module Zr A] (k : ℕ) (g : RangeGens A) (V : A) (p : RangeProver A),
      rangeError k < ((p.wins g k V).ncard : ℚ) / rangeTotal k →
      ∃ t : RTree A, t.Of p ∧ V = (ext t.scalars).1 • g.F + ∑ i ∈ range (2 ^ k), (ext t.scalars).2 i • g.Gs i ∧
        (∀ q ∈ rels k t.scalars, q.eval g (2 ^ k) = 0) ∧
        ((∃ q ∈ rels k t.scalars, ¬ q.IsZero (2 ^ k)) ∨ ∀ i < 2 ^ k, ((ext t.scalars).2 i).val < 2 ^ 63) := by
  obtain ⟨ext, rels, hC⟩ := C18_range_proof_special_sound
  refine ⟨ext, rels, fun A _ _ k g V p hw => ?_⟩
  rw [RangeProver.wins_ncard] at hw
  obtain ⟨t, hwf, hof, hacc⟩ := p.tree_of_rate g k V hw
  exact ⟨t, hof, hC A k g V t hwf hacc⟩

/-- **C84**, for a prover that knows an opening `(r, v)` of its commitment: if it is accepted for more than a fraction
`rangeError k` of the challenges, a non-trivial relation between the generators can be computed from its transcripts, unless
every `v i` is below `2^63`. -/
theorem C84_value_out_of_range_rejected :
    ∃ rels : ℕ → Zr → (ℕ → Zr) → RTree Unit → List RangeRel,
    ∀ (A : Type) [AddCommGroup A] [Module Zr A] (k : ℕ) (g : RangeGens A) (r : Zr) (v : ℕ → Zr) (p : RangeProver A),
      rangeError k < ((p.wins g k (r • g.F + ∑ i ∈ range (2 ^ k), v i • g.Gs i)).ncard : ℚ) / rangeTotal k →
      ∃ t : RTree A, t.Of p ∧ (∀ q ∈ rels k r v t.scalars, q.eval g (2 ^ k) = 0) ∧
        ((∃ q ∈ rels k r v t.scalars, ¬ q.IsZero (2 ^ k)) ∨ ∀ i < 2 ^ k, (v i).val < 2 ^ 63) := by
  obtain ⟨rels, hC⟩ := C18_no_proof_for_value_out_of_range
  refine ⟨rels, fun A _ _ k g r v p hw => ?_⟩
  rw [RangeProver.wins_ncard] at hw
  obtain ⟨t, hwf, hof, hacc⟩ := p.tree_of_rate g k _ hw
  exact ⟨t, hof, hC A k g r v t hwf hacc⟩

/-- The honest prover is accepted for all challenges, so C84 applies to it. -/
theorem C84_honest_prover {A : Type} [AddCommGroup A] [Module Zr A] (g : RangeGens A) (k : ℕ) (r : Zr)
    (v : ℕ → Zr) (hv : ∀ i < 2 ^ k, (v i).val < 2 ^ 63) :
    ∃ p : RangeProver A, ((p.wins g k (r • g.F + ∑ i ∈ range (2 ^ k), v i • g.Gs i)).ncard : ℚ) / rangeTotal k = 1 := by
  refine ⟨honestRangeProver g k r v, ?_⟩
  rw [RangeProver.wins_ncard]
  exact rate_eq_one _ _ (rangeChs_nonempty k) fun q hq =>
    honestRangeProver_accepted g k r v hv _ ((mem_rangeChs k q).1 hq)

/-- The errors for up to `2^15` values (the most that `isPowerOfTwo` admits) are below `2^(-230)`. -/
theorem C84_error_small (k : ℕ) (hk : k ≤ 15) : rangeError k < 1 / 2 ^ 230 := by
  have h1 : (2 : ℚ) ^ k ≤ 2 ^ 15 := pow_le_pow_right₀ (by norm_num) hk
  have h2 : (k : ℚ) ≤ 15 := by exact_mod_cast hk
  have hq : (2 : ℚ) ^ 253 + 1 ≤ order := by exact_mod_cast (by decide +kernel : 2 ^ 253 + 1 ≤ order)
  rw [rangeError]
  have e1 : 5 / (order : ℚ) ≤ 5 / 2 ^ 253 := by
    apply div_le_div_of_nonneg_left <;> linarith
  have e2 : (64 * 2 ^ k + 9 * k + 36) / ((order : ℚ) - 1) ≤ (64 * 2 ^ 15 + 9 * 15 + 36) / 2 ^ 253 := by
    apply div_le_div₀ <;> linarith
  have e3 : (5 : ℚ) / 2 ^ 253 + (64 * 2 ^ 15 + 9 * 15 + 36) / 2 ^ 253 < 1 / 2 ^ 230 := by norm_num
  linarith

end PoL.Props
