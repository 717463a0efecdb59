import Verif.Proofs.Soundness
import Verif.Props.InnerProd

/-!
# C12: special soundness of the inner-product argument (`bp/innerprod.go`)
-/

set_option linter.unusedSectionVars false

namespace PoL.Props

open BP

variable {G1 G2 GT : Type} [AddCommGroup G1] [Module Zr G1] [AddCommGroup G2] [Module Zr G2]
  [AddCommGroup GT] [Module Zr GT] [DecidableEq G1]

/-- The folding rounds of the code accept exactly the transcripts of the specification, whose challenges
are the hash values. -/
theorem verifyLoop_iff_acceptsWith (E : Curve G1 G2 GT) (hE : E.Lawful) (pp : BP.PP G1) (a b : Zr)
    (k : ℕ) : ∀ (P : G1) (g h LRs : List G1), g.length = 2 ^ k → h.length = 2 ^ k →
    LRs.length = 2 * k →
    (verifyLoop E pp P g h LRs a b = some true ↔
      acceptsWith pp.U (roundsOf (roundChallenges E pp.digest LRs) LRs) P g h a b) := by
  induction k with
  | zero =>
    intro P g h LRs hg hh hL
    obtain ⟨g0, rfl⟩ := List.length_eq_one_iff.1 hg
    obtain ⟨h0, rfl⟩ := List.length_eq_one_iff.1 hh
    obtain rfl := List.length_eq_zero_iff.1 (by simpa using hL)
    rw [verifyLoop_one]
    simp only [roundChallenges, roundsOf, acceptsWith, Option.some_inj, decide_eq_true_eq]
    constructor
    · rintro h
      exact ⟨g0, h0, rfl, rfl, by rw [← h]; module⟩
    · rintro ⟨g1, h1, e1, e2, e⟩
      cases e1; cases e2
      rw [e]; module
  | succ k ih =>
    intro P g h LRs hg hh hL
    rw [pow_succ, mul_comm] at hg hh
    have hpos : 0 < 2 ^ k := by positivity
    match LRs, hL with
    | [], hL => simp at hL
    | [_], hL => simp at hL; omega
    | L :: R :: t, hL =>
      obtain ⟨x, hx⟩ := fieldElementFromBytes_isSome
        (hE.sha_len (E.g1Bytes L ++ E.g1Bytes R ++ pp.digest))
      have hx' : fieldElementFromBytes (randomOracle E L R pp.digest) = some x := hx
      rw [verifyLoop_step E pp P L R g h t a b (2 ^ k) hpos hg hh x hx',
        ih _ _ _ t (foldG_length hg) (foldG_length hh) (by simp at hL; omega)]
      simp only [roundChallenges, hx', Option.getD_some, roundsOf, acceptsWith,
        halvesG_eq _ _ g _ hg, halvesG_eq _ _ h _ hh, sq]

/-- **C12**, link to the code: for parameters of length `2^k` and a proof with `2k` group elements,
`Verify` accepts exactly if the folding transcript with the hash challenges is accepting for the
statement `P + x·C·U` over the generators `G`, `H` and `x·U`, where `x` is the first challenge. -/
theorem C12_verify_iff_accepting_transcript (E : Curve G1 G2 GT) (hE : E.Lawful) (pp : BP.PP G1) (k : ℕ)
    (hG : pp.G.length = 2 ^ k) (hH : pp.H.length = 2 ^ k) (π : InnerProductProof G1)
    (hL : π.LRs.length = 2 * k) (x : Zr)
    (hx : fieldElementFromBytes (E.sha256 (instanceHashInput pp π.P)) = some x) :
    π.verify E pp = some true ↔
      acceptsWith (x • pp.U) (roundsOf (ippChallenges E pp π) π.LRs) (π.P + (x * π.C) • pp.U)
        pp.G pp.H π.a π.b := by
  obtain ⟨d, hd⟩ := computeInstance_eq E pp π.P π.C (Or.inr (by omega)) x hx
  rw [InnerProductProof.verify, ippChallenges, hd]
  simp only [Option.bind_eq_bind, Option.bind_some]
  exact verifyLoop_iff_acceptsWith E hE _ π.a π.b k _ _ _ _ hG hH hL

/-- **C12.** There are an extractor and a finder of linear relations, both computing from the scalars of
a transcript tree only, such that for every group, all generators, every statement `P` and every tree
(depth `k`, four non-zero challenges with distinct squares per node) all of whose transcripts are accepted:
the extracted coefficients open `P`; every relation found holds among the generators; and if all relations
found are trivial, the coefficient of `U` is the inner product of the extracted vectors. -/
theorem C12_inner_product_special_sound :
    ∃ (ext : TTree Unit → Rep) (rels : TTree Unit → List Rep),
    ∀ (G1 : Type) [AddCommGroup G1] [Module Zr G1] (k : ℕ) (U P : G1) (g h : List G1) (t : TTree G1),
      g.length = 2 ^ k → h.length = 2 ^ k → t.WellFormed k →
      (∀ p ∈ t.paths, acceptsWith U p.1 P g h p.2.1 p.2.2) →
      (ext t.scalars).a.length = 2 ^ k ∧ (ext t.scalars).b.length = 2 ^ k ∧
      P = dot (ext t.scalars).a g + dot (ext t.scalars).b h + (ext t.scalars).c • U ∧
      (∀ r ∈ rels t.scalars, r.a.length = 2 ^ k ∧ r.b.length = 2 ^ k ∧ dot r.a g + dot r.b h + r.c • U = 0) ∧
      ((∃ r ∈ rels t.scalars, ¬ r.IsZero) ∨
        (ext t.scalars).c = dot (ext t.scalars).a (ext t.scalars).b) := by
  refine ⟨extract, relations, fun G1 _ _ k U P g h t hg hh hwf hacc => ?_⟩
  obtain ⟨⟨h1, h2⟩, h3, h4, h5⟩ := extract_sound U k t P g h hwf hg hh hacc
  refine ⟨h1, h2, h3, fun r hr => ⟨(h4 r hr).1.1, (h4 r hr).1.2, (h4 r hr).2⟩, ?_⟩
  by_cases hz : ∀ r ∈ relations t.scalars, r.IsZero
  · exact Or.inr (h5 hz)
  · left
    push Not at hz
    exact hz

/-- The honest tree of depth one for `a = (1,2)`, `b = (3,5)`, `G = (1,2)`, `H = (5,6)`, `U = 9`: the
hypotheses of C12 are met (with four different answers). -/
def honestTree (a₁ a₂ b₁ b₂ g₁ g₂ h₁ h₂ u : Zr) (x : Zr) : TTree Zr :=
  let l (x : Zr) : TTree Zr := .leaf (x * a₁ + x⁻¹ * a₂) (x⁻¹ * b₁ + x * b₂)
  .node (a₁ * g₂ + b₂ * h₁ + a₁ * b₂ * u) (a₂ * g₁ + b₁ * h₂ + a₂ * b₁ * u) x (2 * x) (3 * x) (4 * x)
    (l x) (l (2 * x)) (l (3 * x)) (l (4 * x))

theorem honestTree_accepted (a₁ a₂ b₁ b₂ g₁ g₂ h₁ h₂ u : Zr) :
    ∀ p ∈ (honestTree a₁ a₂ b₁ b₂ g₁ g₂ h₁ h₂ u 1).paths,
      acceptsWith u p.1 (a₁ * g₁ + a₂ * g₂ + b₁ * h₁ + b₂ * h₂ + (a₁ * b₁ + a₂ * b₂) * u) [g₁, g₂] [h₁, h₂]
        p.2.1 p.2.2 := by
  have key : ∀ x : Zr, x ≠ 0 → acceptsWith u
      [(x, a₁ * g₂ + b₂ * h₁ + a₁ * b₂ * u, a₂ * g₁ + b₁ * h₂ + a₂ * b₁ * u)]
      (a₁ * g₁ + a₂ * g₂ + b₁ * h₁ + b₂ * h₂ + (a₁ * b₁ + a₂ * b₂) * u) [g₁, g₂] [h₁, h₂]
      (x * a₁ + x⁻¹ * a₂) (x⁻¹ * b₁ + x * b₂) := by
    intro x hx
    refine ⟨x⁻¹ * g₁ + x * g₂, x * h₁ + x⁻¹ * h₂, by simp [halvesG], by simp [halvesG], ?_⟩
    simp only [smul_eq_mul]
    field_simp
    ring
  have n2 : (2 : Zr) ≠ 0 := two_ne_zero_zr
  have n3 : (3 : Zr) ≠ 0 := by
    have := natCast_ne_zero_of_lt (n := 3) (by norm_num) (by rw [order]; norm_num); simpa using this
  have n4 : (4 : Zr) ≠ 0 := by
    have := natCast_ne_zero_of_lt (n := 4) (by norm_num) (by rw [order]; norm_num); simpa using this
  intro p hp
  simp only [honestTree, TTree.paths, List.map_cons, List.map_nil, List.cons_append, List.nil_append,
    List.mem_cons, List.not_mem_nil, or_false, mul_one] at hp
  rcases hp with rfl | rfl | rfl | rfl
  · exact key 1 one_ne_zero
  · exact key 2 n2
  · exact key 3 n3
  · exact key 4 n4

theorem honestTree_wellFormed (a₁ a₂ b₁ b₂ g₁ g₂ h₁ h₂ u : Zr) :
    (honestTree a₁ a₂ b₁ b₂ g₁ g₂ h₁ h₂ u 1).WellFormed 1 := by
  have nz : ∀ n : ℕ, 0 < n → n < 100 → (n : Zr) ≠ 0 := fun n h1 h2 =>
    natCast_ne_zero_of_lt h1.ne' (lt_of_lt_of_le h2 (by rw [order]; norm_num))
  have n2 : (2 : Zr) ≠ 0 := by simpa using nz 2 (by norm_num) (by norm_num)
  have n3 : (3 : Zr) ≠ 0 := by simpa using nz 3 (by norm_num) (by norm_num)
  have n4 : (4 : Zr) ≠ 0 := by simpa using nz 4 (by norm_num) (by norm_num)
  have n5 : (5 : Zr) ≠ 0 := by simpa using nz 5 (by norm_num) (by norm_num)
  have n7 : (7 : Zr) ≠ 0 := by simpa using nz 7 (by norm_num) (by norm_num)
  have n8 : (8 : Zr) ≠ 0 := by simpa using nz 8 (by norm_num) (by norm_num)
  have n12 : (12 : Zr) ≠ 0 := by simpa using nz 12 (by norm_num) (by norm_num)
  have n15 : (15 : Zr) ≠ 0 := by simpa using nz 15 (by norm_num) (by norm_num)
  simp only [honestTree, TTree.WellFormed, mul_one, and_true]
  refine ⟨?_, one_ne_zero, n2, n3, n4⟩
  simp only [List.nodup_cons, List.mem_cons, List.not_mem_nil, or_false, not_or, List.nodup_nil,
    and_true, not_false_eq_true]
  refine ⟨⟨?_, ?_, ?_⟩, ⟨?_, ?_⟩, ?_⟩ <;> intro h
  · exact n3 (by linear_combination -h)
  · exact n8 (by linear_combination -h)
  · exact n15 (by linear_combination -h)
  · exact n5 (by linear_combination -h)
  · exact n12 (by linear_combination -h)
  · exact n7 (by linear_combination -h)

example : ∃ (t : TTree Zr) (P : Zr), t.WellFormed 1 ∧
    ∀ p ∈ t.paths, acceptsWith 9 p.1 P [1, 2] [5, 6] p.2.1 p.2.2 :=
  ⟨_, _, honestTree_wellFormed 1 2 3 5 1 2 5 6 9, honestTree_accepted 1 2 3 5 1 2 5 6 9⟩

end PoL.Props
