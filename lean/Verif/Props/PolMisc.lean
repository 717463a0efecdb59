import Verif.Spec.Sizes
import Verif.Props.Pol

/-!
# Malformed proofs, negative totals, sizes (C62–C65)
-/

set_option linter.unusedSectionVars false

namespace PoL.Props
open Spec Pol Verkle PP BP

variable {G1 G2 GT : Type} [AddCommGroup G1] [Module Zr G1] [AddCommGroup G2] [Module Zr G2]
  [AddCommGroup GT] [Module Zr GT] [DecidableEq G1] [DecidableEq GT]

/-! ## C62: malformed proofs -/

/-- C62 as far as it goes: wrong numbers of `W`s or digests, and a wrong root, are answered with an error.  What is
missing: other malformed proofs, see `C62_violated`. -/
theorem C62_wrong_shape_is_an_error_partial (E : Curve G1 G2 GT) (lp : LiabilityProof G1) (pp : PublicParams G1 G2 GT)
    (id : Str) (V W : G1) (id2path : Str → Option (List ℕ)) (path : List ℕ) (hp : id2path id = some path) :
    (lp.W.length + 1 ≠ path.length ∨ lp.digests.length ≠ path.length → lp.verify E pp id V W id2path = some false) ∧
    (∀ C, lp.V[0]? = some C → C ≠ V → lp.verify E pp id V W id2path = some false) := by
  constructor
  · intro h
    unfold LiabilityProof.verify
    refine obind_step hp ?_
    rw [if_pos h]
    rfl
  · intro C hC hne
    unfold LiabilityProof.verify
    refine obind_step hp ?_
    split_ifs
    · rfl
    · refine obind_step hC ?_
      rw [if_pos hne]
      rfl

/-- C62 fails: a proof with the right numbers of `W`s and digests but without any `V`, or with the right root but
without range proofs, makes `Verify` panic. -/
theorem C62_violated (E : Curve G1 G2 GT) (lp : LiabilityProof G1) (pp : PublicParams G1 G2 GT) (id : Str) (V W : G1)
    (id2path : Str → Option (List ℕ)) (path : List ℕ) (hp : id2path id = some path)
    (hW : lp.W.length + 1 = path.length) (hd : lp.digests.length = path.length) :
    (lp.V = [] → lp.verify E pp id V W id2path = none) ∧
    (lp.V[0]? = some V → lp.W[0]? = some W → lp.rangeProofs = [] → lp.verify E pp id V W id2path = none) := by
  have h0 : ¬(lp.W.length + 1 ≠ path.length ∨ lp.digests.length ≠ path.length) := by
    rw [not_or, not_not, not_not]; exact ⟨hW, hd⟩
  constructor
  · intro hV
    unfold LiabilityProof.verify
    refine obind_step hp ?_
    rw [if_neg h0, hV]
    rfl
  · intro hV hW0 hr
    unfold LiabilityProof.verify
    refine obind_step hp ?_
    rw [if_neg h0]
    refine obind_step hV ?_
    rw [if_neg (by simp)]
    refine obind_step hW0 ?_
    rw [if_neg (by simp)]
    obtain ⟨n, hn⟩ : ∃ n, path.length = n + 1 := ⟨_, hW.symm⟩
    have : lp.verifyLoop E pp path.length 0 path.length false = none := by
      rw [hn, LiabilityProof.verifyLoop, hr]
      split_ifs <;> rfl
    rw [this]
    rfl

example : ∃ lp : LiabilityProof Zr, lp.V = [] ∧ lp.W.length + 1 = [0, 1, 2].length ∧ lp.digests.length = [0, 1, 2].length :=
  ⟨⟨0, 0, ⟨0, 0, 0, ⟨[], 0, 0, 0, 0⟩⟩, [], [1, 2], [3, 4, 5], [], ⟨⟨[], 0, 0, 0, 0⟩, 0, 0, 0, 0, 0, [], []⟩, ⟨0, 0⟩⟩, rfl, rfl, rfl⟩

/-! ## C63: negative totals -/

/-- C63 as far as it goes: against the root of a set after any non-empty history of `Set`s with total below `2^63`, a
negative total is accepted only if the proof gives the group element `α^(N+1) g₁`, which is left out of the
parameters.  What is missing: dishonest roots, see `C63_violated`. -/
theorem C63_honest_root_partial {E : Curve G1 G2 GT} (hE : E.Lawful) (hnd : E.NonDegenerate) {env : Env}
    (henv : env.Lawful) {α : Zr} {F L : ℕ} {ls ls' : LiabilitySet G1 G2 GT} (h : NewSet E α F L ls)
    (hist : List (Str × ℤ)) (hne : hist ≠ []) (hids : ValidIds ls.tree.id2Path F L hist)
    (hr : ls.sets E env hist = some ls') (htot : totalAmount (byPath ls.tree.id2Path hist) < 2 ^ 63)
    (x : Verkle.Vertex G1) (hx : Verkle.Vertex.fromBytes E (ls'.s.db []) = some x) (tp : TotalProof G1)
    (hb : -2 ^ 63 ≤ tp.sum) (hneg : tp.sum < 0) (hv : tp.verify E ls.pp x.V = some true) :
    ∃ tp' : TotalProof G1, ls'.proveTot E = some tp' ∧
      ((tp'.sum : Zr) - (tp.sum : Zr))⁻¹ • (tp.liabilityProof - tp'.liabilityProof) = α ^ (F + 2 + 1) • E.genG1 := by
  obtain ⟨tp', x', h1, h2, h3, h4⟩ := C44_total_proof hE henv h hist hne hids hr htot
  rw [hx, Option.some.injEq] at h3
  subst h3
  obtain ⟨hn, -⟩ := (sets_iff E env hist ls ls').1 hr
  have h0 : 0 ≤ totalAmount (byPath ls.tree.id2Path hist) :=
    Finset.sum_nonneg fun p _ => latest_nonneg (byPath_nonneg hn) p
  exact ⟨tp', h1, C45_one_total hE hnd h.pp x.V tp tp' ⟨hb, by omega⟩ (by rw [h2]; constructor <;> omega) hv h4
    (by rw [h2]; omega)⟩

/-- C63 fails: for every total, negative or not, there is a commitment to a balanced vector for which a proof of it
is accepted. -/
theorem C63_violated {E : Curve G1 G2 GT} (hE : E.Lawful) {α : Zr} {F L : ℕ} {pp : PublicParams G1 G2 GT}
    (h : Fits E α F L pp) (n : ℤ) :
    ∃ (v : List Zr) (bf : Zr) (V : G1) (tp : TotalProof G1), Balanced v ∧ pp.PPPP.commit (v ++ [bf]) = some V ∧
      tp.sum = n ∧ tp.verify E pp V = some true := by
  have hF := (fits_F_bound h).2
  set v : List Zr := (intToZr n :: List.replicate (F - 1) 0) ++ [intToZr n] with hv
  have hl : (v ++ [(0 : Zr)]).length = F + 2 := by simp [hv]; omega
  obtain ⟨C, mi, π, c1, c2, c3, c4⟩ := C01_opening_verifies E hE α (F + 2) (by omega) _ hl F (by omega)
  have hmi : mi = intToZr n := by
    rw [List.getElem?_append_left (by simp [hv]; omega), hv, List.getElem?_append_right (by simp; omega)] at c3
    have : F - (intToZr n :: List.replicate (F - 1) 0).length = 0 := by simp; omega
    rw [this] at c3
    simpa using c3.symm
  refine ⟨v, 0, C, ⟨π, n⟩, ⟨_, _, hv, by simp⟩, by rw [h.PPPP]; exact c1, rfl, ?_⟩
  unfold TotalProof.verify
  rw [h.PPPP, h.fanout, ← hmi]
  exact c4

example : ∃ (pp : PublicParams Zr Zr Zr) (V : Zr) (tp : TotalProof Zr), tp.sum = -5 ∧ tp.verify toyCurve pp V = some true := by
  obtain ⟨pp, h⟩ := toy_fits
  obtain ⟨-, -, V, tp, -, -, h1, h2⟩ := C63_violated toyCurve_lawful h (-5)
  exact ⟨pp, V, tp, h1, h2⟩

/-! ## C64: the size of a proof -/

theorem g1vBytes_length (E : Curve G1 G2 GT) (l : List G1) :
    (g1vBytes E l).length = (l.map fun p => (E.g1Bytes p).length).sum := by
  unfold g1vBytes
  rw [List.length_flatMap]

theorem zrBytes_length (x : Zr) : (zrBytes x).length = 32 := natToBE_length _ _

theorem foldl_add_eq {α : Type} (f : α → ℕ) (l : List α) (c : ℕ) :
    l.foldl (fun c x => c + f x) c = c + (l.map f).sum := by
  induction l generalizing c with
  | nil => simp
  | cons a l ih => rw [List.foldl_cons, ih, List.map_cons, List.sum_cons]; omega

theorem encodedLength_append (E : Curve G1 G2 GT) (ps ps' : List G1) (xs xs' : List Zr) :
    encodedLength E (ps ++ ps') (xs ++ xs') = encodedLength E ps xs + encodedLength E ps' xs' := by
  unfold encodedLength
  simp only [List.map_append, List.sum_append]
  omega

theorem ipp_size (E : Curve G1 G2 GT) (p : InnerProductProof G1) :
    p.size E = encodedLength E (ippPoints p) (ippScalars p) := by
  unfold InnerProductProof.size encodedLength ippPoints ippScalars
  rw [g1vBytes_length]
  simp only [List.map_append, List.sum_append, List.map_cons, List.map_nil, List.sum_cons, List.sum_nil]
  omega

theorem range_size (E : Curve G1 G2 GT) (p : RangeProof G1) :
    p.size E = encodedLength E (rangePoints p) (rangeScalars p) := by
  unfold rangePoints rangeScalars
  rw [encodedLength_append, ← ipp_size]
  unfold RangeProof.size encodedLength
  dsimp only
  have : (fun (size : ℕ) (d : G1 × G1 × G1) => size + (E.g1Bytes d.1).length + (E.g1Bytes d.2.1).length
      + (E.g1Bytes d.2.2).length) = fun size d => size + ((E.g1Bytes d.1).length + (E.g1Bytes d.2.1).length
      + (E.g1Bytes d.2.2).length) := by funext s d; omega
  rw [this, foldl_add_eq]
  have e : ((p.Δ.flatMap fun d => [d.1, d.2.1, d.2.2]).map fun q => (E.g1Bytes q).length).sum
      = (p.Δ.map fun d => (E.g1Bytes d.1).length + (E.g1Bytes d.2.1).length + (E.g1Bytes d.2.2).length).sum := by
    induction p.Δ with
    | nil => rfl
    | cons d l ih =>
      rw [List.flatMap_cons, List.map_append, List.sum_append, ih, List.map_cons, List.sum_cons]
      simp [add_assoc]
  simp only [List.map_append, List.sum_append, List.map_cons, List.map_nil, List.sum_cons, List.sum_nil]
  rw [e]
  omega

theorem eq_size (E : Curve G1 G2 GT) (p : Poe.AggregatedProof G1) :
    p.size E = encodedLength E (eqPoints p) (eqScalars p) := by
  unfold eqPoints eqScalars
  rw [encodedLength_append, ← ipp_size]
  unfold Poe.AggregatedProof.size encodedLength
  rw [g1vBytes_length, g1vBytes_length]
  simp only [List.map_append, List.sum_append, List.map_cons, List.map_nil, List.sum_cons, List.sum_nil]
  omega

theorem encodedLength_flatMap {α : Type} (E : Curve G1 G2 GT) (f : α → List G1) (g : α → List Zr) (l : List α) :
    encodedLength E (l.flatMap f) (l.flatMap g) = (l.map fun x => encodedLength E (f x) (g x)).sum := by
  induction l with
  | nil => rfl
  | cons a l ih => rw [List.flatMap_cons, List.flatMap_cons, encodedLength_append, ih, List.map_cons, List.sum_cons]

/-- C64, what `Size` leaves out of a liability proof: the inner-product proof of the sum argument, and the opening
of the client's amount. -/
theorem C64_size_partial (E : Curve G1 G2 GT) (lp : LiabilityProof G1) :
    lp.size E + encodedLength E (lp.total.liabilityProof :: ippPoints lp.sumArgumentProof.π)
        (ippScalars lp.sumArgumentProof.π)
      = encodedLength E (proofPoints lp) (proofScalars lp) := by
  unfold proofPoints proofScalars sumPoints sumScalars
  rw [encodedLength_append, ← eq_size, encodedLength_append, encodedLength_flatMap]
  unfold LiabilityProof.size
  dsimp only
  rw [foldl_add_eq, g1vBytes_length, g1vBytes_length]
  unfold Vec.size
  rw [foldl_add_eq]
  have : (fun x => encodedLength E (rangePoints x) (rangeScalars x)) = fun x : RangeProof G1 => x.size E :=
    funext fun x => (range_size E x).symm
  rw [this]
  change _ + (lp.rangeProofs.map fun x => x.size E).sum + _ + _ = _
  unfold Sum.Proof.size encodedLength
  simp only [List.map_append, List.sum_append, List.map_cons, List.map_nil, List.sum_cons, List.sum_nil]
  omega

/-- C64 fails for every proof: at least 97 bytes are left out. -/
theorem C64_violated {E : Curve G1 G2 GT} (hE : E.Lawful) (lp : LiabilityProof G1) :
    lp.size E + 97 ≤ encodedLength E (proofPoints lp) (proofScalars lp) := by
  have h := C64_size_partial E lp
  have h1 : 1 ≤ (E.g1Bytes lp.total.liabilityProof).length := List.length_pos_iff.2 (hE.g1_nonempty _)
  have h2 : encodedLength E (lp.total.liabilityProof :: ippPoints lp.sumArgumentProof.π)
      (ippScalars lp.sumArgumentProof.π) ≥ 97 := by
    unfold encodedLength ippScalars
    simp only [List.map_cons, List.map_nil, List.sum_cons, List.sum_nil, zrBytes_length]
    omega
  omega

/-! ## C65: the size of the parameters -/

/-- C65, what `Size` gives for parameters of a liability set: the parameters of the vector commitments are left out
altogether. -/
theorem C65_size_partial {E : Curve G1 G2 GT} {α : Zr} {F L : ℕ} {pp : PublicParams G1 G2 GT} (h : Fits E α F L pp) :
    pp.size E + pp.PPPP.size E = paramsLength E pp := by
  unfold PublicParams.size paramsLength paramPoints RPPP.size Poe.PP.size Sum.PP.size PoL.PP.size g2vBytes
  rw [h.poe_vc]
  simp only [g1vBytes_length, List.length_flatMap, List.map_append, List.sum_append, List.map_cons, List.map_nil,
    List.sum_cons, List.sum_nil]
  push_cast
  ring

/-- C65 fails for all parameters of a liability set: `Size` is too small by at least one byte for each of the
`2(F+2)` elements of `G₁` in the parameters of the vector commitments. -/
theorem C65_violated {E : Curve G1 G2 GT} (hE : E.Lawful) {α : Zr} {F L : ℕ} {pp : PublicParams G1 G2 GT}
    (h : Fits E α F L pp) : pp.size E + 2 * (F + 2) ≤ paramsLength E pp := by
  rw [← C65_size_partial h]
  have hl : pp.PPPP.G1s.length = 2 * (F + 2) := by rw [h.PPPP, new_G1s_length E α _ (by omega)]
  have hle : pp.PPPP.G1s.length ≤ (g1vBytes E pp.PPPP.G1s).length := by
    rw [g1vBytes_length]
    have : ∀ l : List G1, l.length ≤ (l.map fun p => (E.g1Bytes p).length).sum := by
      intro l
      induction l with
      | nil => simp
      | cons a l ih =>
        have : 1 ≤ (E.g1Bytes a).length := List.length_pos_iff.2 (hE.g1_nonempty _)
        rw [List.map_cons, List.sum_cons, List.length_cons]; omega
    exact this _
  have : (g1vBytes E pp.PPPP.G1s).length ≤ pp.PPPP.size E := by unfold PoL.PP.size; omega
  omega

end PoL.Props
