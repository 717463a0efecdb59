import Verif.Proofs.Rewind
import Verif.Props.InnerProdSound
import Verif.Props.Sum

/-! # C83: soundness error of the interactive inner-product and sum arguments -/

set_option linter.unusedSectionVars false

namespace PoL.Props

open BP

/-- **C83**, inner-product argument.  There are an extractor and a finder of relations, both computing from scalars only, such
that every prover, whatever its computing power, that is accepted for more than `6k·(order-1)^(k-1)` of the `(order-1)^k`
sequences of non-zero challenges can be rewound to a tree of accepted transcripts from which they get an opening of `P`, and
a non-trivial relation between the generators unless the coefficient of `U` is the inner product of the opened vectors. -/
theorem C83_inner_product_soundness_error :
    ∃ (ext : TTree Unit → Rep) (rels : TTree Unit → List Rep),
    ∀ (G1 : Type) [AddCommGroup G1] [Module Zr G1] (k : ℕ) (U P : G1) (g h : List G1) (p : Prover G1),
      g.length = 2 ^ k → h.length = 2 ^ k → 6 * k * (order - 1) ^ (k - 1) < (p.wins k U P g h).ncard →
      ∃ t : TTree G1, t.Of p ∧ (ext t.scalars).a.length = 2 ^ k ∧ (ext t.scalars).b.length = 2 ^ k ∧
        P = dot (ext t.scalars).a g + dot (ext t.scalars).b h + (ext t.scalars).c • U ∧
        (∀ r ∈ rels t.scalars, r.a.length = 2 ^ k ∧ r.b.length = 2 ^ k ∧ dot r.a g + dot r.b h + r.c • U = 0) ∧
        ((∃ r ∈ rels t.scalars, ¬ r.IsZero) ∨
          (ext t.scalars).c = dot (ext t.scalars).a (ext t.scalars).b) := by
  obtain ⟨ext, rels, hC⟩ := C12_inner_product_special_sound
  refine ⟨ext, rels, fun G1 _ _ k U P g h p hg hh hw => ?_⟩
  obtain ⟨t, hwf, hof, hacc⟩ := p.tree_of_wins k U P g h hg hw
  exact ⟨t, hof, hC G1 k U P g h t hg hh hwf hacc⟩

/-- **C83**, sum argument.  There is a finder of relations, computing from scalars only, such that every prover that knows an
opening `(r, v)` of `V` and is accepted for more than `2·(order-1)^k + order·6k·(order-1)^(k-1)` of the
`order·(order-1)^k` challenges can be rewound to three answers from which it gets a non-trivial relation between the
generators, unless `v` is balanced. -/
theorem C83_sum_soundness_error :
    ∃ rels : (x₀ c r : Zr) → (v b : List Zr) → (a₁ a₂ a₃ : Sum.Answer Unit) → List Sum.Relation,
    ∀ (G1 : Type) [AddCommGroup G1] [Module Zr G1] (k : ℕ) (x₀ r : Zr) (v b : List Zr) (F : G1) (Gs H : List G1)
      (U V : G1) (p : Sum.Prover G1),
      x₀ ≠ 0 → v.length = 2 ^ k → b = List.replicate (2 ^ k - 1) 1 ++ [-1] → Gs.length = 2 ^ k → H.length = 2 ^ k →
      V = r • F + dot v Gs →
      2 * (order - 1) ^ k + order * (6 * k * (order - 1) ^ (k - 1)) < (p.wins k x₀ b F Gs H U V).ncard →
      ∃ a₁ a₂ a₃ : Sum.Answer G1, a₁.Of p ∧ a₂.Of p ∧ a₃.Of p ∧
        (∀ q ∈ rels x₀ p.c r v b a₁.scalars a₂.scalars a₃.scalars,
          q.a.length = 2 ^ k ∧ q.b.length = 2 ^ k ∧ q.eval F Gs H U = 0) ∧
        ((∃ q ∈ rels x₀ p.c r v b a₁.scalars a₂.scalars a₃.scalars, ¬ q.IsZero) ∨ Balanced v) := by
  obtain ⟨rels, hC⟩ := C23_sum_argument_special_sound
  refine ⟨rels, fun G1 _ _ k x₀ r v b F Gs H U V p hx₀ hv hb hGs hH hV hw => ?_⟩
  obtain ⟨a₁, a₂, a₃, h12, h13, h23, hall⟩ := p.answers_of_wins k x₀ b F Gs H U V hGs hw
  exact ⟨a₁, a₂, a₃, (hall a₁ (by simp)).1, (hall a₂ (by simp)).1, (hall a₃ (by simp)).1,
    hC G1 k x₀ p.c r v b F Gs H U V p.W a₁ a₂ a₃ hx₀ hv hb hGs hH hV h12 h13 h23 fun a ha => (hall a ha).2⟩

/-- The honest prover of the folding rounds is accepted for all sequences of non-zero challenges, which are more than C83
asks for. -/
theorem C83_honest_prover (G1 : Type) [AddCommGroup G1] [Module Zr G1] (k : ℕ) (hk : k < 2 ^ 64) (U : G1) (a b : List Zr)
    (g h : List G1) (ha : a.length = 2 ^ k) (hb : b.length = 2 ^ k) (hg : g.length = 2 ^ k) (hh : h.length = 2 ^ k) :
    ∃ p : Prover G1, (p.wins k U (dot a g + dot b h + dot a b • U) g h).ncard = (order - 1) ^ k ∧
      6 * k * (order - 1) ^ (k - 1) < (order - 1) ^ k := by
  refine ⟨honestProver U k a b g h, ?_, ?_⟩
  · rw [Prover.wins_ncard_eq_of_all]
    intro xs hl h0
    have := honestProver_accepted U k a b g h ha hb hg hh xs hl h0
    convert this using 1
    abel
  · rcases k with _ | k
    · simp
    · rw [Nat.add_sub_cancel, pow_succ, mul_comm]
      have hpos : 0 < (order - 1) ^ k := Nat.pow_pos (by decide +kernel)
      refine Nat.mul_lt_mul_of_pos_left ?_ hpos
      have : 6 * 2 ^ 64 < order - 1 := by decide +kernel
      omega

/-- The honest prover of the sum argument for a balanced vector, with any mask `w` and blinding factors `r` and `s`, is
accepted for all challenges. -/
theorem C83_honest_sum_prover (G1 : Type) [AddCommGroup G1] [Module Zr G1] (k : ℕ) (hk : k < 2 ^ 64) (x₀ r s : Zr)
    (v w b : List Zr) (F : G1) (Gs H : List G1) (U : G1) (hv : v.length = 2 ^ k) (hw : w.length = 2 ^ k)
    (hb : b = List.replicate (2 ^ k - 1) 1 ++ [-1]) (hGs : Gs.length = 2 ^ k) (hH : H.length = 2 ^ k) (hbal : Balanced v) :
    ∃ p : Sum.Prover G1, p.W = s • F + dot w Gs ∧
      (p.wins k x₀ b F Gs H U (r • F + dot v Gs)).ncard = order * (order - 1) ^ k ∧
      2 * (order - 1) ^ k + order * (6 * k * (order - 1) ^ (k - 1)) < order * (order - 1) ^ k := by
  have hpos : 0 < 2 ^ k := by positivity
  have lb : b.length = 2 ^ k := by rw [hb]; simp; omega
  have h0 : dot v b = 0 := by
    rw [hb, imbalance_eq hv hpos]
    exact (imbalance_zero_iff hv hpos).2 hbal
  refine ⟨⟨dot w b, s • F + dot w Gs, fun x => (-(r + x * s),
    honestProver (x₀ • U) k (List.zipWith (· + ·) v (w.map fun a => a * x)) b Gs H)⟩, rfl, ?_, ?_⟩
  · apply Sum.Prover.wins_ncard_eq_of_all
    intro x xs hl hn
    have lz : (List.zipWith (· + ·) v (w.map fun a => a * x)).length = 2 ^ k := by simp [hv, hw]
    have := honestProver_accepted (x₀ • U) k _ b Gs H lz lb hGs hH xs hl hn
    rw [dot_add_left _ _ _ (by simp [hv, hw]), dot_add_left _ _ _ (by simp [hv, hw]), dot_mul_left, dot_mul_left, h0] at this
    convert this using 1
    simp only [smul_eq_mul]
    module
  · have hp : 0 < (order - 1) ^ k := Nat.pow_pos (by decide +kernel)
    rcases k with _ | k
    · simp; decide +kernel
    · rw [Nat.add_sub_cancel, pow_succ]
      have h1 : 6 * 2 ^ 64 + 8 < order - 1 := by decide +kernel
      have hq : 0 < (order - 1) ^ k := Nat.pow_pos (by decide +kernel)
      have h2 : 2 * (order - 1) + order * (6 * (k + 1)) < order * (order - 1) := by
        have h3 : 6 * (k + 1) + 2 ≤ order - 1 := by omega
        have h4 : order * (6 * (k + 1) + 2) ≤ order * (order - 1) := Nat.mul_le_mul_left _ h3
        have h5 : 2 * (order - 1) < order * 2 := by decide +kernel
        rw [Nat.mul_add] at h4
        omega
      calc 2 * ((order - 1) ^ k * (order - 1)) + order * (6 * (k + 1) * (order - 1) ^ k)
          = (2 * (order - 1) + order * (6 * (k + 1))) * (order - 1) ^ k := by ring
        _ < order * (order - 1) * (order - 1) ^ k := Nat.mul_lt_mul_of_pos_right h2 hq
        _ = order * ((order - 1) ^ k * (order - 1)) := by ring

end PoL.Props
