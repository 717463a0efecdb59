import Verif.Proofs.Binding
import Verif.Proofs.Tab
import Verif.Props.Oracles

/-!
# Challenges bind their inputs (C87)
-/

set_option linter.unusedSectionVars false

namespace PoL.Props
open Spec BP Binding

variable {G1 G2 GT : Type} [AddCommGroup G1] [Module Zr G1] [AddCommGroup G2] [Module Zr G2]
  [AddCommGroup GT] [Module Zr GT] [DecidableEq G1]

/-- The challenge `x` of the range proof binds the digest of the parameters, the commitments `V` and `W` and the
commitment `Q` to the bits. -/
theorem C87_range_x (E : Curve G1 G2 GT) (n : ℕ) (hE : FixedEncoding E n) (mac : Bytes → Bytes → Bytes)
    (pp : RPPP G1) :
    Binds {i : Bytes × G1 × G1 × G1 | i.1.length = 32} fun h i =>
      rangeProofRO1 (withHash E h mac) { pp with digest := i.1 } i.2.1 i.2.2.1 i.2.2.2 := by
  refine ⟨fun i => i.1 ++ E.g1Bytes i.2.1 ++ E.g1Bytes i.2.2.1 ++ E.g1Bytes i.2.2.2, ?_, ?_⟩
  · rintro h ⟨d, V, W, Q⟩ (hd : d.length = 32)
    simp only [rangeProofRO1, RPPP.getDigest, hd, withHash]
    rfl
  · rintro ⟨d, V, W, Q⟩ (hd : d.length = 32) ⟨d', V', W', Q'⟩ (hd' : d'.length = 32) h
    simp only [List.append_assoc] at h
    obtain ⟨ed, h⟩ := split (hd.trans hd'.symm) h
    obtain ⟨h1, h⟩ := split (by rw [hE.len, hE.len]) h
    obtain ⟨h2, h3⟩ := split (by rw [hE.len, hE.len]) h
    rw [ed, hE.inj h1, hE.inj h2, hE.inj h3]

/-- The challenges `y0` and `y1` of the range proof bind the digest of the parameters, the commitments `Q` and `R`,
the challenge `x` and which of the two challenges it is. -/
theorem C87_range_y (E : Curve G1 G2 GT) (n : ℕ) (hE : FixedEncoding E n) (mac : Bytes → Bytes → Bytes)
    (pp : RPPP G1) :
    Binds {i : Bytes × G1 × G1 × Zr × UInt8 | i.1.length = 32} fun h i =>
      rangeY (withHash E h mac) { pp with digest := i.1 } i.2.1 i.2.2.1 i.2.2.2.1 i.2.2.2.2 := by
  refine ⟨fun i => E.g1Bytes i.2.1 ++ E.g1Bytes i.2.2.1 ++ ([i.2.2.2.2] ++ i.1 ++ zrBytes i.2.2.2.1), ?_, ?_⟩
  · rintro h ⟨d, Q, R, x, t⟩ (hd : d.length = 32)
    simp only [rangeY, RPPP.getDigest, hd, withHash, randomOracle]
    rfl
  · rintro ⟨d, Q, R, x, t⟩ (hd : d.length = 32) ⟨d', Q', R', x', t'⟩ (hd' : d'.length = 32) h
    simp only [List.append_assoc] at h
    obtain ⟨h1, h⟩ := split (by rw [hE.len, hE.len]) h
    obtain ⟨h2, h⟩ := split (by rw [hE.len, hE.len]) h
    obtain ⟨h3, h⟩ := split (a := [t]) (c := [t']) rfl h
    obtain ⟨ed, h4⟩ := split (hd.trans hd'.symm) h
    rw [ed, hE.inj h1, hE.inj h2, zrBytes_injective h4, List.cons.inj h3 |>.1]

/-- The challenge `z` of the range proof binds the digest of the parameters, the commitments `C1`, `C2`, `Q`, `R` and
the challenges `y0`, `y1`. -/
theorem C87_range_z (E : Curve G1 G2 GT) (n : ℕ) (hE : FixedEncoding E n) (mac : Bytes → Bytes → Bytes)
    (pp : RPPP G1) :
    Binds {i : Bytes × G1 × G1 × G1 × G1 × Zr × Zr | i.1.length = 32} fun h i =>
      computeZ (withHash E h mac) { pp with digest := i.1 } i.2.1 i.2.2.1 i.2.2.2.1 i.2.2.2.2.1
        (zrBytes i.2.2.2.2.2.1) (zrBytes i.2.2.2.2.2.2) := by
  refine ⟨fun i => E.g1Bytes i.2.2.2.1 ++ E.g1Bytes i.2.2.2.2.1 ++ (i.1 ++ E.g1Bytes i.2.1 ++ E.g1Bytes i.2.2.1
    ++ zrBytes i.2.2.2.2.2.1 ++ zrBytes i.2.2.2.2.2.2), ?_, ?_⟩
  · rintro h ⟨d, C1, C2, Q, R, y0, y1⟩ (hd : d.length = 32)
    simp only [computeZ, RPPP.getDigest, hd, withHash, randomOracle]
    rfl
  · rintro ⟨d, C1, C2, Q, R, y0, y1⟩ (hd : d.length = 32) ⟨d', C1', C2', Q', R', y0', y1'⟩ (hd' : d'.length = 32) h
    simp only [List.append_assoc] at h
    obtain ⟨h1, h⟩ := split (by rw [hE.len, hE.len]) h
    obtain ⟨h2, h⟩ := split (by rw [hE.len, hE.len]) h
    obtain ⟨ed, h⟩ := split (hd.trans hd'.symm) h
    obtain ⟨h3, h⟩ := split (by rw [hE.len, hE.len]) h
    obtain ⟨h4, h⟩ := split (by rw [hE.len, hE.len]) h
    obtain ⟨h5, h6⟩ := split (by rw [zrBytes_length, zrBytes_length]) h
    rw [ed, hE.inj h1, hE.inj h2, hE.inj h3, hE.inj h4, zrBytes_injective h5, zrBytes_injective h6]

/-- A challenge of the iterative reduction is a hash of `V` and of a hash of the digest of the parameters, `A` and
`B`; both inputs bind what they are made of. -/
theorem C87_reduction (E : Curve G1 G2 GT) (n : ℕ) (hE : FixedEncoding E n) (mac : Bytes → Bytes → Bytes) :
    ∃ (inner : Bytes × G1 × G1 → Bytes) (outer : Bytes × G1 → Bytes),
      (∀ h d A B V, irChallenge (withHash E h mac) d A B V =
        fieldElementFromBytes (h (outer (h (inner (d, A, B)), V)))) ∧
      Function.Injective inner ∧ Set.InjOn outer {i | i.1.length = 32} := by
  refine ⟨fun i => E.g1Bytes i.2.1 ++ E.g1Bytes i.2.2 ++ i.1, fun i => i.1 ++ E.g1Bytes i.2, fun _ _ _ _ _ => rfl, ?_, ?_⟩
  · rintro ⟨d, A, B⟩ ⟨d', A', B'⟩ h
    simp only [List.append_assoc] at h
    obtain ⟨h1, h⟩ := split (by rw [hE.len, hE.len]) h
    obtain ⟨h2, rfl⟩ := split (by rw [hE.len, hE.len]) h
    rw [hE.inj h1, hE.inj h2]
  · rintro ⟨d, V⟩ (hd : d.length = 32) ⟨d', V'⟩ (hd' : d'.length = 32) h
    obtain ⟨ed, h1⟩ := split (hd.trans hd'.symm) h
    have e := hE.inj h1
    exact Prod.ext ed e

/-- The challenge of a round of the inner-product argument binds the digest of the parameters, `L` and `R`. -/
theorem C87_inner_product (E : Curve G1 G2 GT) (n : ℕ) (hE : FixedEncoding E n) (mac : Bytes → Bytes → Bytes) :
    ∃ enc : Bytes × G1 × G1 → Bytes, Function.Injective enc ∧
      ∀ h (pp : BP.PP G1) L R g hs P np, computeNextParams (withHash E h mac) L R pp g hs P = some np →
        some np.x = fieldElementFromBytes (h (enc (pp.digest, L, R))) ∧ np.xInverse = np.x⁻¹ := by
  refine ⟨fun i => E.g1Bytes i.2.1 ++ E.g1Bytes i.2.2 ++ i.1, ?_, ?_⟩
  · rintro ⟨d, A, B⟩ ⟨d', A', B'⟩ h
    simp only [List.append_assoc] at h
    obtain ⟨h1, h⟩ := split (by rw [hE.len, hE.len]) h
    obtain ⟨h2, rfl⟩ := split (by rw [hE.len, hE.len]) h
    rw [hE.inj h1, hE.inj h2]
  · intro h pp L R g hs P np hnp
    unfold computeNextParams at hnp
    obtain ⟨x, hx, hnp⟩ := obind_elim hnp
    obtain ⟨g1, -, hnp⟩ := obind_elim hnp
    obtain ⟨g2, -, hnp⟩ := obind_elim hnp
    obtain ⟨g3, -, hnp⟩ := obind_elim hnp
    obtain ⟨h1, -, hnp⟩ := obind_elim hnp
    obtain ⟨h2, -, hnp⟩ := obind_elim hnp
    obtain ⟨h3, -, hnp⟩ := obind_elim hnp
    obtain rfl := Option.some.inj hnp
    exact ⟨hx.symm, rfl⟩

/-- The challenge of the sum argument binds `c`, `V` and `W`. -/
theorem C87_sum (E : Curve G1 G2 GT) (n : ℕ) (hE : FixedEncoding E n) (mac : Bytes → Bytes → Bytes) :
    Binds (Set.univ : Set (Zr × G1 × G1)) fun h i => Sum.randomOracleCVW (withHash E h mac) i.1 i.2.1 i.2.2 := by
  refine ⟨fun i => zrBytes i.1 ++ E.g1Bytes i.2.1 ++ E.g1Bytes i.2.2, fun _ _ _ => rfl, ?_⟩
  rintro ⟨c, V, W⟩ - ⟨c', V', W'⟩ - h
  simp only [List.append_assoc] at h
  obtain ⟨h1, h⟩ := split (by rw [zrBytes_length, zrBytes_length]) h
  obtain ⟨h2, h3⟩ := split (by rw [hE.len, hE.len]) h
  rw [zrBytes_injective h1, hE.inj h2, hE.inj h3]

/-- The second weight of an aggregation of sum arguments binds all the commitments; the first is `1`. -/
theorem C87_sum_aggregation (E : Curve G1 G2 GT) (n : ℕ) (hE : FixedEncoding E n) (mac : Bytes → Bytes → Bytes)
    (m : ℕ) :
    Binds (Set.univ : Set (List G1)) fun h V =>
      (Sum.createHVZKChallenge (withHash E h mac) V (m + 2)).bind (·[1]?) := by
  refine ⟨fun V => V.flatMap E.g1Bytes, ?_, fun V _ V' _ h => flatMap_inj _ n hE.pos hE.len hE.inj V V' h⟩
  intro h V _
  show ((fieldElementFromBytes (h (V.flatMap E.g1Bytes))).bind _).bind _ = _
  cases fieldElementFromBytes (h (V.flatMap E.g1Bytes)) with
  | none => rfl
  | some τ => simp [powerSeriesLoop, intToZr]

/-- The challenges of the equality argument bind all the points, all the integers below 65536 and the digest of the
parameters; the message under the key that binds them is different for different positions below 65536. -/
theorem C87_equalities (E : Curve G1 G2 GT) (n : ℕ) (hE : FixedEncoding E n) :
    ∃ (key : List G1 × List ℕ × Bytes → Bytes) (msg : ℕ → Bytes),
      (∀ h mac gs ints d m ts, Poe.ro (withHash E h mac) gs ints d m = some ts → ts.length = m ∧
        ∀ i, i < m → ts[i]? = fieldElementFromBytes (mac (h (key (gs, ints, d))) (msg i))) ∧
      (∀ a b, Set.InjOn key {i | i.1.length = a ∧ i.2.1.length = b ∧ ∀ k ∈ i.2.1, k < 65536}) ∧
      Set.InjOn msg {i | i < 65536} := by
  refine ⟨fun i => i.1.flatMap E.g1Bytes ++ i.2.1.flatMap Poe.uint16BE ++ i.2.2, Poe.uint16BE, ?_, ?_, ?_⟩
  · intro h mac gs ints d m ts hts
    unfold Poe.ro at hts
    have hl := mapM_length _ _ _ hts
    rw [List.length_range] at hl
    refine ⟨hl, ?_⟩
    intro i hi
    exact (mapM_getElem _ _ _ hts i i (List.getElem?_range hi)).symm
  · rintro a b ⟨gs, ks, d⟩ ⟨h1, h2, h3⟩ ⟨gs', ks', d'⟩ ⟨h1', h2', h3'⟩ h
    dsimp only at h h1 h2 h3 h1' h2' h3'
    rw [List.append_assoc, List.append_assoc] at h
    obtain ⟨e1, h⟩ := split (by rw [flatMap_len _ n hE.len, flatMap_len _ n hE.len, h1, h1']) h
    obtain ⟨e2, rfl⟩ := split (by rw [flatMap_len _ 2 uint16BE_len, flatMap_len _ 2 uint16BE_len, h2, h2']) h
    rw [flatMap_inj _ n hE.pos hE.len hE.inj _ _ e1, uint16s_inj _ _ h3 h3' e2]
  · intro i hi j hj h
    exact uint16BE_inj hi hj h

/-- The challenges of the point-proof aggregation bind the digest of the parameters, all the commitments and the
position, for positions below 256. -/
theorem C87_pointproofs (E : Curve G1 G2 GT) (n : ℕ) (hE : FixedEncoding E n) (mac : Bytes → Bytes → Bytes)
    (pp : PoL.PP G1 G2 GT) :
    Binds {i : Bytes × List G1 × ℕ | i.1.length = 32 ∧ i.2.2 < 256} fun h i =>
      PoL.PP.ro (withHash E h mac) { pp with digest := i.1 } i.2.1 i.2.2 := by
  refine ⟨fun i => i.1 ++ [UInt8.ofNat i.2.2] ++ i.2.1.flatMap E.g1Bytes, fun _ _ _ => rfl, ?_⟩
  rintro ⟨d, cs, i⟩ ⟨hd, hi⟩ ⟨d', cs', j⟩ ⟨hd', hj⟩ h
  dsimp only at hd hd' hi hj h
  rw [List.append_assoc, List.append_assoc] at h
  obtain ⟨ed, h⟩ := split (hd.trans hd'.symm) h
  obtain ⟨h1, h2⟩ := split (a := [UInt8.ofNat i]) (c := [UInt8.ofNat j]) rfl h
  have h3 := congrArg UInt8.toNat (List.cons.inj h1).1
  simp only [UInt8.toNat_ofNat', Nat.reducePow, Nat.mod_eq_of_lt hi, Nat.mod_eq_of_lt hj] at h3
  rw [ed, h3, flatMap_inj _ n hE.pos hE.len hE.inj _ _ h2]

/-- The digest of a vertex binds its commitment `V` and, where it has one, its commitment `W`. -/
theorem C87_vertex (E : Curve G1 G2 GT) (n : ℕ) (hE : FixedEncoding E n) (mac : Bytes → Bytes → Bytes)
    (v : Verkle.Vertex G1) :
    Binds (Set.univ : Set (G1 × Option G1)) fun h i =>
      Verkle.Vertex.digest (withHash E h mac) { v with V := i.1, W := i.2 } := by
  refine ⟨fun i => E.g1Bytes i.1 ++ (i.2.map E.g1Bytes).getD [], fun _ _ _ => rfl, ?_⟩
  rintro ⟨V, W⟩ - ⟨V', W'⟩ - h
  dsimp only at h
  obtain ⟨h1, h2⟩ := split (by rw [hE.len, hE.len]) h
  rw [hE.inj h1]
  have hp := hE.pos
  match W, W', h2 with
  | none, none, _ => rfl
  | some W, some W', h2 => rw [hE.inj h2]
  | none, some W', h2 =>
    have := congrArg List.length h2
    simp [hE.len] at this
    omega
  | some W, none, h2 =>
    have := congrArg List.length h2
    simp [hE.len] at this
    omega

/-! ## Digests of parameters -/

/-- The digest of the point-proof parameters binds all of them. -/
theorem C87_pointproof_parameters (E : Curve G1 G2 GT) (n n2 : ℕ) (hE : FixedEncoding E n) (hn2 : 0 < n2)
    (hl2 : ∀ p, (E.g2Bytes p).length = n2) (hi2 : Function.Injective E.g2Bytes) (hiT : Function.Injective E.gtBytes)
    (mac : Bytes → Bytes → Bytes) (pp : PoL.PP G1 G2 GT) (a b : ℕ) :
    DigestBinds {i : List G1 × List G2 × GT | i.1.length = a ∧ i.2.1.length = b} fun h i =>
      some (PoL.PP.setupDigest (withHash E h mac) { pp with G1s := i.1, G2s := i.2.1, Gt := i.2.2 }).digest := by
  refine ⟨fun i => i.1.flatMap E.g1Bytes ++ i.2.1.flatMap E.g2Bytes ++ E.gtBytes i.2.2, fun _ _ _ => rfl, ?_⟩
  rintro ⟨l, m, t⟩ ⟨h1, h2⟩ ⟨l', m', t'⟩ ⟨h1', h2'⟩ h
  dsimp only at h1 h2 h1' h2' h
  rw [List.append_assoc, List.append_assoc] at h
  obtain ⟨e1, h⟩ := split (by rw [flatMap_len _ n hE.len, flatMap_len _ n hE.len, h1, h1']) h
  obtain ⟨e2, e3⟩ := split (by rw [flatMap_len _ n2 hl2, flatMap_len _ n2 hl2, h2, h2']) h
  rw [flatMap_inj _ n hE.pos hE.len hE.inj _ _ e1, flatMap_inj _ n2 hn2 hl2 hi2 _ _ e2, hiT e3]

/-- The digest of the equality-proof parameters binds their generators and the digest of the point-proof
parameters. -/
theorem C87_equality_parameters (E : Curve G1 G2 GT) (n : ℕ) (hE : FixedEncoding E n) (mac : Bytes → Bytes → Bytes)
    (pp : Poe.PP G1 G2 GT) (m : ℕ) :
    DigestBinds {i : List G1 × List G1 × G1 × Bytes | i.1.length = m ∧ i.2.1.length = m} fun h i =>
      some (Poe.PP.setupDigest (withHash E h mac)
        { pp with G := i.1, H := i.2.1, F := i.2.2.1, vc := { pp.vc with digest := i.2.2.2 } }).digest := by
  refine ⟨fun i => i.1.flatMap E.g1Bytes ++ i.2.1.flatMap E.g1Bytes ++ E.g1Bytes i.2.2.1 ++ i.2.2.2,
    fun _ _ _ => rfl, ?_⟩
  rintro ⟨l, k, t, d⟩ ⟨h1, h2⟩ ⟨l', k', t', d'⟩ ⟨h1', h2'⟩ h
  dsimp only at h1 h2 h1' h2' h
  simp only [List.append_assoc] at h
  obtain ⟨e1, h⟩ := split (by rw [flatMap_len _ n hE.len, flatMap_len _ n hE.len, h1, h1']) h
  obtain ⟨e2, h⟩ := split (by rw [flatMap_len _ n hE.len, flatMap_len _ n hE.len, h2, h2']) h
  obtain ⟨e3, e4⟩ := split (by rw [hE.len, hE.len]) h
  rw [flatMap_inj _ n hE.pos hE.len hE.inj _ _ e1, flatMap_inj _ n hE.pos hE.len hE.inj _ _ e2, hE.inj e3, e4]

/-- The digest that `Digest` computes for range-proof parameters without a cached one binds all their generators. -/
theorem C87_range_parameters (E : Curve G1 G2 GT) (n : ℕ) (hE : FixedEncoding E n) (mac : Bytes → Bytes → Bytes)
    (a b : ℕ) :
    DigestBinds {pp : RPPP G1 | pp.Gs.length = a ∧ pp.Hs.length = b ∧ pp.Fs.length = b ∧ pp.digest = []} fun h pp =>
      some (pp.getDigest (withHash E h mac)) := by
  refine ⟨fun pp => pp.digestInput E, ?_, ?_⟩
  · rintro h ⟨G, H, F, Gs, Hs, Fs, d⟩ ⟨-, -, -, hd⟩
    dsimp only at hd
    subst hd
    rfl
  · rintro ⟨G, H, F, Gs, Hs, Fs, d⟩ ⟨h1, h2, h3, h4⟩ ⟨G', H', F', Gs', Hs', Fs', d'⟩ ⟨h1', h2', h3', h4'⟩ h
    dsimp only at h1 h2 h3 h4 h1' h2' h3' h4'
    simp only [RPPP.digestInput, g1vBytes, List.append_assoc] at h
    obtain ⟨e1, h⟩ := split (by rw [hE.len, hE.len]) h
    obtain ⟨e2, h⟩ := split (by rw [hE.len, hE.len]) h
    obtain ⟨e3, h⟩ := split (by rw [hE.len, hE.len]) h
    obtain ⟨e4, h⟩ := split (by rw [flatMap_len _ n hE.len, flatMap_len _ n hE.len, h1, h1']) h
    obtain ⟨e5, e6⟩ := split (by rw [flatMap_len _ n hE.len, flatMap_len _ n hE.len, h2, h2']) h
    rw [hE.inj e1, hE.inj e2, hE.inj e3, flatMap_inj _ n hE.pos hE.len hE.inj _ _ e4,
      flatMap_inj _ n hE.pos hE.len hE.inj _ _ e5, flatMap_inj _ n hE.pos hE.len hE.inj _ _ e6, h4, h4']

/-- The digest of the inner-product parameters binds `U`, `G` and `H`. -/
theorem C87_inner_product_parameters (E : Curve G1 G2 GT) (n : ℕ) (hE : FixedEncoding E n)
    (mac : Bytes → Bytes → Bytes) (m : ℕ) (hm : 0 < m) :
    DigestBinds {i : G1 × List G1 × List G1 | i.2.1.length = m ∧ i.2.2.length = m} fun h i =>
      (setupDigest (withHash E h mac) { digest := [], U := i.1, G := i.2.1, H := i.2.2 }).map (·.digest) := by
  refine ⟨fun i => E.g1Bytes i.1 ++ (tab m fun k => (i.2.1.getD k 0, i.2.2.getD k 0)).flatMap fun p : G1 × G1 =>
    E.g1Bytes p.1 ++ E.g1Bytes p.2, ?_, ?_⟩
  · rintro h ⟨U, G, H⟩ ⟨h1, h2⟩
    dsimp only at h1 h2
    have hd : digestInput (withHash E h mac) { digest := [], U := U, G := G, H := H } =
        some (E.g1Bytes U ++ (tab m fun k => (G.getD k 0, H.getD k 0)).flatMap fun p : G1 × G1 =>
          E.g1Bytes p.1 ++ E.g1Bytes p.2) := by
      unfold digestInput
      dsimp only
      rw [h1, mapM_tab fun k => E.g1Bytes (G.getD k 0) ++ E.g1Bytes (H.getD k 0)]
      · rw [List.flatMap_def, map_tab]
        rfl
      · intro k hk
        rw [List.getElem?_eq_getElem (by omega : k < G.length), List.getElem?_eq_getElem (by omega : k < H.length)]
        simp [List.getD_eq_getElem?_getD, withHash, h1, h2, hk, hm]
    dsimp only
    rw [setupDigest, hd]
    rfl
  · rintro ⟨U, G, H⟩ ⟨h1, h2⟩ ⟨U', G', H'⟩ ⟨h1', h2'⟩ h
    dsimp only at h1 h2 h1' h2' h
    obtain ⟨e1, h⟩ := split (by rw [hE.len, hE.len]) h
    have e := flatMap_inj (fun p : G1 × G1 => E.g1Bytes p.1 ++ E.g1Bytes p.2) (n + n)
      (Nat.add_pos_left hE.pos n) (fun p => by rw [List.length_append, hE.len, hE.len]) (fun p q hpq => by
        obtain ⟨a, b⟩ := split (by rw [hE.len, hE.len]) hpq
        exact Prod.ext (hE.inj a) (hE.inj b)) _ _ h
    have hk : ∀ k < m, G.getD k 0 = G'.getD k 0 ∧ H.getD k 0 = H'.getD k 0 := by
      intro k hk
      have := congrArg (·[k]?) e
      rw [tab_getElem? _ hk, tab_getElem? _ hk, Option.some.injEq, Prod.mk.injEq] at this
      exact this
    have hG : G = G' := by
      rw [eq_tab G 0 h1, eq_tab G' 0 h1']
      exact tab_congr fun k h => (hk k h).1
    have hH : H = H' := by
      rw [eq_tab H 0 h2, eq_tab H' 0 h2']
      exact tab_congr fun k h => (hk k h).2
    rw [hE.inj e1, hG, hH]

/-- The shape of the inner-product parameters is not bound: `G = [a, b]` without `H` has the digest of `G = [a]`,
`H = [b]`, whatever the hash function. -/
theorem C87_shape_not_bound (E : Curve G1 G2 GT) (U a b : G1) (d : Bytes) :
    (setupDigest E { digest := d, U := U, G := [a, b], H := [] }).map (·.digest) =
      (setupDigest E { digest := d, U := U, G := [a], H := [b] }).map (·.digest) := by
  simp [setupDigest, digestInput, List.range_succ]

/-- Example: the toy curve has distinct encodings of 32 bytes. -/
example : FixedEncoding toyCurve 32 := ⟨by norm_num, zrBytes_length, fun _ _ h => zrBytes_injective h⟩

end PoL.Props
