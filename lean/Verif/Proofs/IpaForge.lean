import Verif.Proofs.InnerProd
import Verif.Proofs.Soundness
import Verif.Props.InnerProdSound
import Verif.Spec.Forge

/-!
# Helper lemmas for C82: rounds of the inner-product argument made before the statement

The challenge of a round is a hash of the pair `(L,R)` of that round and of the parameters, not of the statement or of the
other rounds.
-/

set_option linter.unusedSectionVars false

namespace PoL.BP

variable {G1 G2 GT : Type} [AddCommGroup G1] [Module Zr G1] [AddCommGroup G2] [Module Zr G2]
  [AddCommGroup GT] [Module Zr GT]

theorem foldWeights_length : ∀ xs : List Zr, (foldWeights xs).length = 2 ^ xs.length
  | [] => rfl
  | x :: xs => by simp [foldWeights, foldWeights_length xs]; ring

theorem dot_foldWeights {M : Type} [AddCommGroup M] [Module Zr M] (x : Zr) (xs : List Zr) (g : List M)
    (hg : g.length = 2 * 2 ^ xs.length) :
    dot (foldWeights (x :: xs)) g = dot (foldWeights xs) (foldG x⁻¹ x (2 ^ xs.length) g) := by
  have hw := foldWeights_length xs
  conv_lhs => rw [dot_take_drop (2 ^ xs.length) _ g]
  rw [foldWeights, List.take_left' (by simp [hw]), List.drop_left' (by simp [hw]), dot_mul_left, dot_mul_left, foldG,
    dot_add_right _ _ _ (by simp [hg]; omega), dot_gvmul, dot_gvmul]

variable [DecidableEq G1]

/-- The sum of the squares of the challenges, weighted. -/
def squareSum (xs es : List Zr) : Zr := dot es (xs.map (· ^ 2))

theorem roundChallenges_length (E : Curve G1 G2 GT) (d : Bytes) :
    ∀ (k : ℕ) (LRs : List G1), LRs.length = 2 * k → (roundChallenges E d LRs).length = k
  | 0, LRs, h => by
    obtain rfl := List.length_eq_zero_iff.1 (by simpa using h)
    rfl
  | k + 1, [], h => by simp at h
  | k + 1, [_], h => by simp at h; omega
  | k + 1, _ :: _ :: t, h => by
    rw [roundChallenges, List.length_cons, roundChallenges_length E d k t (by simp at h; omega)]

/-- The verifier accepts the rounds of `forge` for the commitment to `a`, `b` and the inner product reduced by
`Σ es_i·x_i²`. -/
theorem forge_spec (E : Curve G1 G2 GT) (hE : E.Lawful) (pp : PP G1) (k : ℕ) :
    ∀ (a b : List Zr) (g h : List G1) (es : List Zr), a.length = 2 ^ k → b.length = 2 ^ k →
      g.length = 2 ^ k → h.length = 2 ^ k → es.length = k →
      let f := forge E pp.digest pp.U k a b g h es
      f.1.length = 2 * k ∧ f.2.2 = dot (foldWeights (roundChallenges E pp.digest f.1)) b ∧
        ((∀ x ∈ roundChallenges E pp.digest f.1, x ≠ 0) → ∀ P' : G1,
          verifyLoop E pp P' g h f.1 f.2.1 f.2.2
            = some (decide ((dot a b - squareSum (roundChallenges E pp.digest f.1) es) • pp.U + dot a g + dot b h = P'))) := by
  induction k with
  | zero =>
    intro a b g h es ha hb hg hh hes
    obtain ⟨a0, rfl⟩ := List.length_eq_one_iff.1 ha
    obtain ⟨b0, rfl⟩ := List.length_eq_one_iff.1 hb
    obtain ⟨g0, rfl⟩ := List.length_eq_one_iff.1 hg
    obtain ⟨h0, rfl⟩ := List.length_eq_one_iff.1 hh
    obtain rfl := List.length_eq_zero_iff.1 hes
    refine ⟨rfl, ?_, fun _ P' => ?_⟩
    · simp [forge, roundChallenges, foldWeights]
    · simp only [forge]
      rw [verifyLoop_one]
      simp [roundChallenges, squareSum]
  | succ k ih =>
    intro a b g h es ha hb hg hh hes
    obtain ⟨e, es, rfl⟩ := List.exists_cons_of_length_eq_add_one hes
    rw [pow_succ, mul_comm] at ha hb hg hh
    have hn : 0 < 2 ^ k := by positivity
    intro f
    set n := 2 ^ k with hnk
    set L := dot (a.take n) (g.drop n) + dot (b.drop n) (h.take n)
      + dot (a.take n) (b.drop n) • pp.U with hL
    set R := dot (a.drop n) (g.take n) + dot (b.take n) (h.drop n)
      + dot (a.drop n) (b.take n) • pp.U with hR
    obtain ⟨x, hx⟩ := fieldElementFromBytes_isSome
      (hE.sha_len (E.g1Bytes (L + e • pp.U) ++ E.g1Bytes R ++ pp.digest))
    have hgx : (fieldElementFromBytes (randomOracle E (L + e • pp.U) R pp.digest)).getD 0 = x := by
      rw [show randomOracle E (L + e • pp.U) R pp.digest
        = E.sha256 (E.g1Bytes (L + e • pp.U) ++ E.g1Bytes R ++ pp.digest) from rfl, hx]; rfl
    have ih' := ih (foldV x x⁻¹ n a) (foldV x⁻¹ x n b)
      (foldG x⁻¹ x n g) (foldG x x⁻¹ n h) es
      (foldV_length ha) (foldV_length hb) (foldG_length hg) (foldG_length hh) (by simpa using hes)
    set f' := forge E pp.digest pp.U k (foldV x x⁻¹ n a) (foldV x⁻¹ x n b) (foldG x⁻¹ x n g) (foldG x x⁻¹ n h) es with hf'
    have hf : f = ((L + e • pp.U) :: R :: f'.1, f'.2) := by
      simp only [f, forge, List.headD_cons, List.tail_cons]
      rw [← hnk, ← hL, ← hR, hgx, halvesG_eq _ _ a _ ha, halvesG_eq _ _ b _ hb, halvesG_eq _ _ g _ hg,
        halvesG_eq _ _ h _ hh, ← foldV_eq_foldG, ← foldV_eq_foldG]
    obtain ⟨hlen, hbf, hver⟩ := ih'
    have hcl := roundChallenges_length E pp.digest k f'.1 hlen
    rw [hf]
    dsimp only
    refine ⟨by simp [hlen]; omega, ?_, fun hne P' => ?_⟩
    · rw [hbf, roundChallenges, hgx, dot_foldWeights _ _ _ (by rw [hcl, hb]), hcl, foldV_eq_foldG]
    have hx0 : x ≠ 0 := by
      apply hne
      simp [roundChallenges, hgx]
    rw [verifyLoop_step E pp P' (L + e • pp.U) R g h f'.1 _ _ n hn hg hh x hx,
      hver (fun y hy => hne y (by simp [roundChallenges, hy]))]
    have hid := fold_identity hx0 pp.U ha hb hg hh
    rw [← hL, ← hR] at hid
    have hsq : squareSum (roundChallenges E pp.digest ((L + e • pp.U) :: R :: f'.1)) (e :: es)
        = e * x ^ 2 + squareSum (roundChallenges E pp.digest f'.1) es := by
      rw [squareSum, roundChallenges, hgx, List.map_cons, dot_cons, smul_eq_mul, squareSum]
    rw [hsq]
    congr 1
    rw [decide_eq_decide]
    constructor
    · intro h'
      linear_combination (norm := module) h' - hid
    · intro h'
      linear_combination (norm := module) h' + hid

omit [DecidableEq G1] in
/-- Rounds accepted for one statement are accepted for another one, made afterwards. -/
theorem acceptsWith_shift (U : G1) (t a b : Zr) : ∀ (rs : List (Zr × G1 × G1)) (P : G1) (g h : List G1),
    g.length = 2 ^ rs.length → h.length = 2 ^ rs.length → acceptsWith U rs P g h a b →
    acceptsWith U rs (P + t • dot (foldWeights (rs.map Prod.fst)) g + (t * b) • U) g h (a + t) b
  | [], P, g, h, hg, hh, hacc => by
    obtain ⟨g0, h0, rfl, rfl, rfl⟩ := hacc
    refine ⟨g0, h0, rfl, rfl, ?_⟩
    simp only [List.map_nil, foldWeights, dot_cons, dot_nil_left, one_smul, add_zero]
    module
  | (x, L, R) :: rs, P, g, h, hg, hh, hacc => by
    rw [List.length_cons, pow_succ, mul_comm] at hg hh
    rw [acceptsWith, halvesG_eq _ _ g _ hg, halvesG_eq _ _ h _ hh] at hacc ⊢
    have := acceptsWith_shift U t a b rs _ _ _ (foldG_length hg) (foldG_length hh) hacc
    rw [List.map_cons, dot_foldWeights _ _ _ (by simpa using hg), List.length_map]
    convert this using 1
    module

/-- The parameters used in the rounds are the same for all statements. -/
theorem instance_const (E : Curve G1 G2 GT) (pp : PP G1) (hGH : pp.H = [] ∨ pp.G.length ≤ pp.H.length) (x : Zr)
    (hx : fieldElementFromBytes (E.sha256 pp.digest) = some x) :
    ∃ d, ∀ (P : G1) (C : Zr), computeInstanceSpecificParams E pp P C
      = some ({ digest := d, G := pp.G, H := pp.H, U := x • pp.U }, P + (x * C) • pp.U) := by
  have hx' : ∀ P : G1, fieldElementFromBytes (E.sha256 (instanceHashInput pp P)) = some x := fun _ => hx
  obtain ⟨d, hd⟩ := computeInstance_eq E pp 0 0 hGH x (hx' _)
  refine ⟨d, fun P C => ?_⟩
  obtain ⟨d', hd'⟩ := computeInstance_eq E pp P C hGH x (hx' _)
  have := instance_digest_indep E pp (P := P) (P' := 0) (c := C) (c' := 0) rfl
  rw [hd, hd'] at this
  rw [hd']
  simpa using this

omit [DecidableEq G1] in
/-- The combination of the pairs `(L,R)` that the verifier adds to the statement. -/
def roundSum : List (Zr × G1 × G1) → G1
  | [] => 0
  | (x, L, R) :: rs => x ^ 2 • L + (x ^ 2)⁻¹ • R + roundSum rs

omit [DecidableEq G1] in
/-- All rounds in one equation. -/
theorem acceptsWith_iff (U : G1) (a b : Zr) : ∀ (rs : List (Zr × G1 × G1)) (P : G1) (g h : List G1),
    g.length = 2 ^ rs.length → h.length = 2 ^ rs.length → (acceptsWith U rs P g h a b ↔
      P + roundSum rs = a • dot (foldWeights (rs.map Prod.fst)) g
        + b • dot (foldWeights ((rs.map Prod.fst).map (·⁻¹))) h + (a * b) • U)
  | [], P, g, h, hg, hh => by
    obtain ⟨g0, rfl⟩ := List.length_eq_one_iff.1 hg
    obtain ⟨h0, rfl⟩ := List.length_eq_one_iff.1 hh
    simp only [acceptsWith, roundSum, List.map_nil, foldWeights, dot_cons, dot_nil_left, one_smul, add_zero]
    constructor
    · rintro ⟨g1, h1, e1, e2, e⟩
      cases e1; cases e2
      exact e
    · intro e
      exact ⟨g0, h0, rfl, rfl, e⟩
  | (x, L, R) :: rs, P, g, h, hg, hh => by
    rw [List.length_cons, pow_succ, mul_comm] at hg hh
    rw [acceptsWith, halvesG_eq _ _ g _ hg, halvesG_eq _ _ h _ hh,
      acceptsWith_iff U a b rs _ _ _ (foldG_length hg) (foldG_length hh), List.map_cons, List.map_cons,
      dot_foldWeights _ _ _ (by simpa using hg), dot_foldWeights _ _ _ (by simpa using hh), inv_inv, List.length_map,
      List.length_map, List.length_map, roundSum]
    rw [show x ^ 2 • L + P + (x ^ 2)⁻¹ • R + roundSum rs = P + (x ^ 2 • L + (x ^ 2)⁻¹ • R + roundSum rs) by abel]

omit [DecidableEq G1] in
theorem roundsOf_map_fst : ∀ (k : ℕ) (xs : List Zr) (LRs : List G1), xs.length = k → LRs.length = 2 * k →
    (roundsOf xs LRs).map Prod.fst = xs
  | 0, xs, LRs, h, _ => by
    obtain rfl := List.length_eq_zero_iff.1 h
    rfl
  | k + 1, [], _, h, _ => by simp at h
  | k + 1, x :: xs, [], _, h => by simp at h
  | k + 1, x :: xs, [_], _, h => by simp at h; omega
  | k + 1, x :: xs, _ :: _ :: t, h, h' => by
    rw [roundsOf, List.map_cons, roundsOf_map_fst k xs t (by simpa using h) (by simp at h'; omega)]

theorem foldWeights_ne_zero : ∀ xs : List Zr, (∀ x ∈ xs, x ≠ 0) → ∀ w ∈ foldWeights xs, w ≠ 0
  | [], _, w, hw => by
    rw [foldWeights, List.mem_singleton] at hw
    rw [hw]; exact one_ne_zero
  | x :: xs, h, w, hw => by
    have hx : x ≠ 0 := h x (by simp)
    have ih := foldWeights_ne_zero xs fun y hy => h y (by simp [hy])
    rw [foldWeights, List.mem_append, List.mem_map, List.mem_map] at hw
    rcases hw with ⟨u, hu, rfl⟩ | ⟨u, hu, rfl⟩
    · exact mul_ne_zero (ih u hu) (inv_ne_zero hx)
    · exact mul_ne_zero (ih u hu) hx

end PoL.BP
