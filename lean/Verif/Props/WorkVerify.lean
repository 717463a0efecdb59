import Verif.Proofs.WorkVerify
import Verif.Proofs.Place
import Verif.Props.Work
import Verif.Props.Shape

/-!
# C122: how many points `Verify` makes

A proof comes from someone else.  How long can it keep the verifier busy?  `Verify` checks the number of `W`s and of digests, and reads
as many range proofs as the path has entries and as many rounds as the parameters ask for.  It does not check the number of `V`s, nor
the lengths of `Vaggr` and `Waggr` of the equality proof, and it multiplies all of their points.
-/

set_option linter.unusedSectionVars false

namespace PoL.Props

open Spec Ptr PoL.BP PoL.Pol

variable {G1 G2 GT : Type} [AddCommGroup G1] [Module Zr G1] [AddCommGroup G2] [Module Zr G2] [AddCommGroup GT] [Module Zr GT]
  [DecidableEq G1] [DecidableEq GT]

theorem isPadded_lt {m M : ℕ} (h : IsPadded m M) (hm : 1 ≤ m) : M ≤ 2 * m := by
  obtain ⟨⟨j, j1, -, rfl⟩, -, hmin⟩ := h
  by_contra hlt
  obtain rfl | hj : j = 1 ∨ 2 ≤ j := by omega
  · omega
  · have h2 : 2 ^ j = 2 * 2 ^ (j - 1) := by rw [← Nat.pow_succ']; congr 1; omega
    have := hmin (j - 1) (by omega) (by omega)
    have := Nat.one_le_two_pow (n := j - 1)
    omega

theorem verify_costs {E : Curve G1 G2 GT} {α : Zr} {F L : ℕ} {p : PublicParams Ref Ref Ref} {q : PublicParams G1 G2 GT}
    (hq : Fits E α F L q) {h : Mem (Cell G1 G2 GT)} (hp : PubAt h p q) (gl : Globals) (lp : LiabilityProof Ref) (id : Str) (V W : Ref)
    (id2path : Str → Option (List ℕ)) (path : List ℕ) (hpath : id2path id = some path) (hL : path.length = L)
    {h' : Mem (Cell G1 G2 GT)} {b : Bool} (run : Ptr.Pol.verify E gl lp p id V W id2path h = some (b, h')) :
    ∃ M, IsPadded (L - 1) M ∧ made h h' ≤ L * (834 * (F + 1) + 20) + 2 * L + 9 * (F + 1) + 16 * M + 37 +
        (lp.V.length + lp.equalityProof.Vaggr.length + lp.equalityProof.Waggr.length) ∧
      (b = true → lp.equalityProof.Vaggr.length + lp.equalityProof.Waggr.length ≤ made h h') := by
  have hL2 := hq.depth
  have hG1 : q.PPPP.G1s.length = 2 * (F + 2) := by rw [hq.PPPP, PP.new_G1s_length E α _ (by omega)]
  obtain ⟨M, hM, mG, mH⟩ := hq.poe_size
  obtain ⟨M', hpad, hM'⟩ := padLoop_spec (m := path.length - 1) (by omega) (by
    obtain ⟨j, -, j2, hj⟩ := hM.1
    have := hM.2.1
    have h15 : 2 ^ j ≤ 2 ^ 15 := Nat.pow_le_pow_right (by norm_num) j2
    rw [hL]
    omega)
  rw [hL] at hM'
  obtain rfl : M' = M := isPadded_unique hM' hM
  have g1 : p.RPPP.Gs.length = F + 1 := by rw [hp.RPPP.Gs.length, hq.rp_Gs, List.length_take, hG1]; omega
  have g2 := hp.RPPP.Hs.length.trans hq.rp_Hs
  have g3 := hp.RPPP.Fs.length.trans hq.rp_Fs
  have g4 : p.SAPP.Gs.length = F + 1 := by rw [hp.SAPP.Gs.length, hq.sa_Gs, List.length_take, hG1]; omega
  have g5 := hp.SAPP.H.length.trans hq.sa_H
  have g6 := hp.POEPP.G.length.trans mG
  have g7 := hp.POEPP.H.length.trans mH
  have hle := hM.2.1
  have := made_of_costs (Ptr.Pol.costs_verify E gl lp p id V W id2path path hpath M' hpad (by omega) (by omega) (by omega)
    (List.length_pos_iff.1 (by omega)) (by omega) (List.length_pos_iff.1 (by omega)) g6 g7 (by omega)) run
  rw [g1, g4, hL] at this
  exact ⟨M', hM, this⟩

/-- **C122.** Whatever proof `Verify` is given, if it returns it has made at most 853 points for each entry of the path and each entry
of a vertex, and one for each entry of three lists in the proof. -/
theorem C122_verify_is_linear {E : Curve G1 G2 GT} {α : Zr} {F L : ℕ} {p : PublicParams Ref Ref Ref} {q : PublicParams G1 G2 GT}
    (hq : Fits E α F L q) {h : Mem (Cell G1 G2 GT)} (hp : PubAt h p q) (gl : Globals) (lp : LiabilityProof Ref) (id : Str) (V W : Ref)
    (id2path : Str → Option (List ℕ)) (path : List ℕ) (hpath : id2path id = some path) (hL : path.length = L)
    {h' : Mem (Cell G1 G2 GT)} {b : Bool} (run : Ptr.Pol.verify E gl lp p id V W id2path h = some (b, h')) :
    made h h' ≤ 853 * ((F + 1) * L) + (lp.V.length + lp.equalityProof.Vaggr.length + lp.equalityProof.Waggr.length) := by
  obtain ⟨M, hM, h1, -⟩ := verify_costs hq hp gl lp id V W id2path path hpath hL run
  have hL2 := hq.depth
  have hM2 := isPadded_lt hM (by omega)
  have hF : 4 ≤ F + 1 := by
    obtain ⟨k, k1, -, e⟩ := hq.power
    rw [e]
    exact Nat.pow_le_pow_right (n := 2) (by norm_num) k1
  have e1 : L * (834 * (F + 1) + 20) = 834 * ((F + 1) * L) + 20 * L := by ring
  have e2 : 4 * L ≤ (F + 1) * L := Nat.mul_le_mul_right L hF
  have e3 : (F + 1) * 2 ≤ (F + 1) * L := Nat.mul_le_mul_left (F + 1) hL2
  rw [e1] at h1
  omega

/-- **C122.** What it takes to have a proof accepted grows with two of these lists: each of their entries is multiplied. -/
theorem C122_accepted_pays {E : Curve G1 G2 GT} {α : Zr} {F L : ℕ} {p : PublicParams Ref Ref Ref} {q : PublicParams G1 G2 GT}
    (hq : Fits E α F L q) {h : Mem (Cell G1 G2 GT)} (hp : PubAt h p q) (gl : Globals) (lp : LiabilityProof Ref) (id : Str) (V W : Ref)
    (id2path : Str → Option (List ℕ)) (path : List ℕ) (hpath : id2path id = some path) (hL : path.length = L)
    {h' : Mem (Cell G1 G2 GT)} (run : Ptr.Pol.verify E gl lp p id V W id2path h = some (true, h')) :
    lp.equalityProof.Vaggr.length + lp.equalityProof.Waggr.length ≤ made h h' := by
  obtain ⟨M, -, -, h2⟩ := verify_costs hq hp gl lp id V W id2path path hpath hL run
  exact h2 rfl

/-- **C122**, what honest provers send: without surplus entries in the lists, the parameters alone bound the work. -/
theorem C122_verify_bounded_partial {E : Curve G1 G2 GT} {α : Zr} {F L : ℕ} {p : PublicParams Ref Ref Ref} {q : PublicParams G1 G2 GT}
    (hq : Fits E α F L q) {h : Mem (Cell G1 G2 GT)} (hp : PubAt h p q) (gl : Globals) (lp : LiabilityProof Ref) (k κ : ℕ)
    (hκ : IsPadded (L - 1) (2 ^ κ)) (hs : NoSurplus k κ L lp) (id : Str) (V W : Ref)
    (id2path : Str → Option (List ℕ)) (path : List ℕ) (hpath : id2path id = some path) (hL : path.length = L)
    {h' : Mem (Cell G1 G2 GT)} {b : Bool} (run : Ptr.Pol.verify E gl lp p id V W id2path h = some (b, h')) :
    made h h' ≤ 855 * ((F + 1) * L) := by
  have h1 := C122_verify_is_linear hq hp gl lp id V W id2path path hpath hL run
  have hL2 := hq.depth
  have hM2 := isPadded_lt hκ (by omega)
  have hF : 4 ≤ F + 1 := by
    obtain ⟨k, k1, -, e⟩ := hq.power
    rw [e]
    exact Nat.pow_le_pow_right (n := 2) (by norm_num) k1
  have e2 : 4 * L ≤ (F + 1) * L := Nat.mul_le_mul_right L hF
  have h2 := hs.V
  have h3 := hs.Vaggr
  have h4 := hs.Waggr
  omega

theorem map_bind_congr {α β γ : Type} (o : Option α) {f g : α → Option β} {φ : β → γ} (h : ∀ a, (f a).map φ = (g a).map φ) :
    (o >>= f).map φ = (o >>= g).map φ := by
  cases o with
  | none => rfl
  | some a => exact h a

/-- With a hash function that hashes everything to the same, surplus entries of `Vaggr` do not matter. -/
theorem eqs_surplus (E : Curve G1 G2 GT) (e : Poe.Equalities G1 G2 GT)
    (hRO : ∀ gs gs' is d n, e.RO gs is d n = e.RO gs' is d n) (p : Poe.AggregatedProof G1)
    (hl : e.V.length ≤ p.Vaggr.length) (s : List G1) : e.verify E { p with Vaggr := p.Vaggr ++ s } = e.verify E p := by
  have hadd : ∀ x : Zr, PoL.Gv.add e.V (PoL.Gv.mul (p.Vaggr ++ s) x) = PoL.Gv.add e.V (PoL.Gv.mul p.Vaggr x) := by
    intro x
    rw [PoL.Gv.add_eq (by simp [PoL.Gv.mul]; omega), PoL.Gv.add_eq (by simp [PoL.Gv.mul]; omega)]
    refine congrArg some (List.ext_getElem (by simp [PoL.Gv.mul]; omega) fun i h1 h2 => ?_)
    simp only [List.length_zipWith] at h1 h2
    rw [List.getElem_zipWith, List.getElem_zipWith]
    have hi : i < p.Vaggr.length := by omega
    simp only [PoL.Gv.mul, List.getElem_map, List.getElem_append_left hi]
  unfold Poe.Equalities.verify Poe.Equalities.verifyState
  dsimp only
  rw [hRO (p.Vaggr ++ s ++ p.Waggr ++ e.V ++ e.W) (p.Vaggr ++ p.Waggr ++ e.V ++ e.W),
    hRO (p.Vaggr ++ s ++ p.Waggr ++ e.V ++ e.W ++ [p.U] ++ [p.V]) (p.Vaggr ++ p.Waggr ++ e.V ++ e.W ++ [p.U] ++ [p.V])]
  simp only [hadd]
  repeat refine map_bind_congr _ fun _ => ?_
  split
  · rfl
  · repeat refine map_bind_congr _ fun _ => ?_
    rfl

/-- **C122**, the full claim fails: no bound holds for all accepted proofs.  For each number there is a proof that `Verify`
accepts, and that makes it make more points than that, with the same parameters and the same path. -/
theorem C122_no_bound : ∃ (q : PublicParams Zr Zr Zr) (f : Str → Option (List ℕ)), Fits toyCurve 2 3 3 q ∧ f ['2', '2', '1'] = some [2, 2, 1] ∧
    ∀ B : ℕ, ∃ (h h' : Mem (Cell Zr Zr Zr)) (gl : Globals) (p : PublicParams Ref Ref Ref) (lp : LiabilityProof Ref) (V W : Ref),
      GlobalsAt toyCurve h gl ∧ PubAt h p q ∧ Ptr.Pol.verify toyCurve gl lp p ['2', '2', '1'] V W f h = some (true, h') ∧
        B ≤ made h h' := by
  obtain ⟨ls, h, ht⟩ := toy_set
  have hids : ValidIds ls.tree.id2Path 3 3 toyHist := by rw [ht]; exact toyHist_valid
  have h42 : totalAmount (byPath ls.tree.id2Path toyHist) = 42 := by rw [ht]; decide
  have hp : ls.tree.id2Path ['2', '2', '1'] = some [2, 2, 1] := by rw [ht]; rfl
  obtain ⟨ls', hs⟩ := C43_sets_return toyCurve_lawful toyEnv_lawful h toyHist hids (by decide)
  obtain ⟨lp, x, W, h1, h2, -, -, h4⟩ := C47_liability_proof_verifies_partial toyCurve_lawful toyEnv_lawful h toyHist hids hs
    (by rw [h42]; norm_num) ['2', '2', '1'] [2, 2, 1] hp (by rw [ht]; decide) (by rw [ht]; decide) toyRand
    toyRand_sized (toy_challenges _ _ _)
  have hκ : IsPadded (3 - 1) (2 ^ 1) := ⟨⟨1, by norm_num, by norm_num, rfl⟩, by norm_num,
    fun i hi _ => le_self_pow₀ (by norm_num) (by omega)⟩
  have hsh := C96_accepted_is_long_enough toyCurve_lawful h.pp 2 1 rfl hκ ls.tree.id2Path _ [2, 2, 1] hp rfl lp _ _ h4
  refine ⟨ls.pp, ls.tree.id2Path, h.pp, hp, fun B => ?_⟩
  obtain ⟨path', hp', hacc⟩ := (verify_iff toyCurve lp ls.pp _ _ _ ls.tree.id2Path).1 h4
  obtain rfl : [2, 2, 1] = path' := Option.some.inj (hp.symm.trans hp')
  obtain ⟨lp', hlp'⟩ : ∃ lp', lp' = { lp with equalityProof := { lp.equalityProof with
    Vaggr := lp.equalityProof.Vaggr ++ List.replicate B 0 } } := ⟨_, rfl⟩
  have hacc' : Accepted toyCurve ls.pp [2, 2, 1] x.V W lp' := by
    rw [hlp']
    refine ⟨hacc.len_W, hacc.len_digests, hacc.len_V, hacc.root_V, hacc.root_W, hacc.range_proofs, hacc.inner_digests,
      hacc.leaf_digest, hacc.point_proof, hacc.sum_argument, ?_, hacc.liability⟩
    obtain ⟨zero, padded, e1, e2, e3⟩ := hacc.equalities
    refine ⟨zero, padded, e1, e2, (eqs_surplus _ _ (fun _ _ _ _ _ => rfl) _ ?_ _).trans e3⟩
    obtain ⟨M, hpad', hM⟩ := padLoop_spec (m := 3 - 1) (by norm_num) (by norm_num)
    obtain rfl : M = 2 ^ 1 := isPadded_unique hM hκ
    obtain rfl : ((2 ^ 1 : ℕ) : ℤ) = padded := Option.some.inj (hpad'.symm.trans e2)
    have hl := hacc.len_V
    obtain ⟨e1, -⟩ := pathEqualities_sizes toyCurve ls.pp [2, 2, 1] lp.V zero (2 ^ 1) (by simp) hl (by norm_num)
    have := hsh.equalities.Vaggr
    refine le_trans (le_of_eq ?_) this
    exact e1
  have hv := (verify_iff toyCurve lp' ls.pp ['2', '2', '1'] x.V W ls.tree.id2Path).2 ⟨_, hp, hacc'⟩
  obtain ⟨gl, m₀, -, -, g0⟩ := agrees_some (wp_initGlobals (E := toyCurve) ⟨[], []⟩)
  obtain ⟨m₁, p, k₁, r₁⟩ := place_pub ls.pp m₀
  obtain ⟨m₂, r, k₂, r₂⟩ := place_liability (G2 := Zr) (GT := Zr) lp' m₁
  obtain ⟨m₃, V', k₃, r₃⟩ := place_point (G1 := Zr) (G2 := Zr) (GT := Zr) x.V m₂
  obtain ⟨m₄, W', k₄, r₄⟩ := place_point (G1 := Zr) (G2 := Zr) (GT := Zr) W m₃
  have k34 := k₃.trans k₄
  have k24 := k₂.trans k34
  have hrun := Ptr.Pol.agrees_verify (g0.mono (k₁.trans k24)) (r₁.mono k24) (r₂.mono k34) ['2', '2', '1'] (r₃.mono k₄) r₄ ls.tree.id2Path
  rw [hv] at hrun
  obtain ⟨b, h', run, -, rfl⟩ := agrees_some hrun
  refine ⟨m₄, h', gl, p, r, V', W', g0.mono (k₁.trans k24), r₁.mono k24, run, ?_⟩
  have h5 := C122_accepted_pays h.pp (r₁.mono k24) gl r _ V' W' _ [2, 2, 1] hp rfl run
  have h6 := (r₂.mono k34).equalityProof.Vaggr.length
  have h7 : lp'.equalityProof.Vaggr.length = lp.equalityProof.Vaggr.length + B := by rw [hlp']; simp
  omega

end PoL.Props
