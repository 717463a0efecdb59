import Verif.Proofs.Shape

/-!
# Accepted proofs with lists cut off make verification panic
-/

set_option linter.unusedSectionVars false

namespace PoL.BP
open Spec

variable {G1 G2 GT : Type} [AddCommGroup G1] [Module Zr G1] [AddCommGroup G2] [Module Zr G2]
  [AddCommGroup GT] [Module Zr GT] [DecidableEq G1] [DecidableEq GT]

theorem obind_none {α β : Type} {x : Option α} {f : α → Option β} (h : x = none) : (x >>= f) = none := by rw [h]; rfl

theorem iterVerifyLoop_cut (E : Curve G1 G2 GT) (hE : E.Lawful) (digest : Bytes) (u : Zr) (j : ℕ) :
    ∀ (G : List G1) (V : G1) (Δ Δ' : List (G1 × G1 × G1)) (fV : Option G1) (ys : List Zr) r,
      G.length = 2 ^ j → iterVerifyLoop E digest u (2 ^ j / 2) G V Δ fV ys = some (some r) → Δ' <+: Δ → Δ'.length < j →
      iterVerifyLoop E digest u (2 ^ j / 2) G V Δ' fV ys = none := by
  induction j with
  | zero => intros; omega
  | succ j ih =>
    intro G V Δ Δ' fV ys r hG h hpre hlt
    have h2 : 2 ^ (j + 1) / 2 = 2 ^ j := by rw [pow_succ]; omega
    rw [pow_succ, mul_comm] at hG
    have hpos : 0 < 2 ^ j := by positivity
    match Δ', hpre, hlt with
    | [], _, _ => rw [h2, iterVerifyLoop.eq_def, dif_neg (by omega)]
    | d :: Δ', hpre, hlt =>
      obtain ⟨t, rfl⟩ := hpre
      obtain ⟨A, B, V'⟩ := d
      obtain ⟨x, hx⟩ := irChallenge_isSome E hE digest A B V
      rw [List.cons_append, h2, iterVerifyLoop_step E digest u (2 ^ j) hpos G hG V A B V' _ fV ys x hx] at h
      rw [h2, iterVerifyLoop_step E digest u (2 ^ j) hpos G hG V A B V' Δ' fV ys x hx]
      split_ifs at h ⊢
      · exact ih _ _ _ Δ' _ _ _ (foldG_length hG) h (List.prefix_append _ _) (by simpa using hlt)
      · simp at h

theorem prefix_eq_or_lt {α : Type} {l l' : List α} (h : l' <+: l) : l' = l ∨ l'.length < l.length := by
  rcases Nat.eq_or_lt_of_le h.length_le with h1 | h1
  · exact Or.inl (h.eq_of_length h1)
  · exact Or.inr h1

theorem verifyRange_cut (E : Curve G1 G2 GT) (hE : E.Lawful) (pp : RPPP G1) (k : ℕ)
    (hk1 : 1 ≤ k) (hk2 : k ≤ 15) (hGs : pp.Gs.length = 2 ^ k) (hHs : pp.Hs.length = 2 ^ k * 64)
    (hFs : pp.Fs.length = 2 ^ k * 64) (rp rp' : RangeProof G1) (V : G1) (h : verifyRange E pp rp V = some true)
    (hΔ : rp.Δ.length ≤ k) (hL : rp.ipp.LRs.length ≤ 2 * (k + 6)) (hc : RangeCut rp rp') (hne : rp' ≠ rp) :
    verifyRange E pp rp' V = none := by
  obtain ⟨hsame, hcΔ, hcL⟩ := hc
  generalize rp'.Δ = Δ' at hsame hcΔ
  generalize rp'.ipp.LRs = LRs' at hsame hcL
  subst hsame
  rw [verifyRange, Option.map_eq_some_iff] at h
  obtain ⟨⟨b, rp'⟩, h, rfl⟩ := h
  rw [verifyRange, Option.map_eq_none_iff]
  unfold verifyRangeState at h ⊢
  obtain ⟨x, hx, h⟩ := obind_elim h
  obtain ⟨rdx, hrdx, h⟩ := obind_elim h
  obtain ⟨r, hr, h⟩ := obind_elim h
  obtain ⟨d', U', hrdx'⟩ := rangeRdxPP_eq E pp
  have hrdx'' := hrdx
  rw [hrdx', Option.some.injEq] at hrdx
  refine obind_step hx (obind_step hrdx'' ?_)
  cases r with
  | none => simp at h
  | some r =>
    obtain ⟨xs, u⟩ := r
    dsimp only at h
    rcases prefix_eq_or_lt hcΔ with rfl | hlt
    · refine obind_step hr ?_
      dsimp only
      obtain ⟨f, e1, h⟩ := obind_elim h
      obtain ⟨d, e2, h⟩ := obind_elim h
      obtain ⟨y0, e3, h⟩ := obind_elim h
      obtain ⟨y1, e4, h⟩ := obind_elim h
      obtain ⟨z, e5, h⟩ := obind_elim h
      obtain ⟨Fp, hFp, h⟩ := obind_elim h
      obtain ⟨ipaPP, hipa, h⟩ := obind_elim h
      obtain ⟨P, e6, h⟩ := obind_elim h
      refine obind_step e1 (obind_step e2 (obind_step e3 (obind_step e4 (obind_step e5 (obind_step hFp (obind_step hipa
        (obind_step e6 (obind_none ?_))))))))
      have lFp : Fp.length = 2 ^ k * 64 := by
        rw [Gv.mulV_eq (by simp), Option.some.injEq] at hFp
        rw [← hFp]; simp [hFs]
      obtain ⟨d'', U'', hipa'⟩ := rangeIpaPP_eq E pp Fp (by omega)
      rw [hipa', Option.some.injEq] at hipa
      rw [ipp_none_iff E hE ipaPP (k + 6) (by rw [← hipa]; simp [hHs, pow_add]) (by rw [← hipa]; simp [lFp, pow_add])]
      rcases prefix_eq_or_lt hcL with rfl | hlt
      · exact absurd rfl hne
      · dsimp only
        omega
    · refine obind_none ?_
      have e : ∀ Δ, iterativeVerify E rdx (rp.γ • pp.F + V + x • rp.W) Δ rp.u
          = iterVerifyLoop E rdx.digest rp.u (2 ^ k / 2) rdx.G (rp.γ • pp.F + V + x • rp.W) Δ none [] := by
        intro Δ
        rw [iterativeVerify, ← hrdx, hGs, isPowerOfTwo_pow k hk1 hk2]; rfl
      rw [e] at hr
      have := iterVerifyLoop_cut E hE rdx.digest rp.u k rdx.G _ _ Δ' _ _ _ (by rw [← hrdx]; exact hGs) hr hcΔ (by omega)
      rw [← e] at this
      exact this

end PoL.BP

namespace PoL.Poe
open BP Spec

variable {G1 G2 GT : Type} [AddCommGroup G1] [Module Zr G1] [AddCommGroup G2] [Module Zr G2]
  [AddCommGroup GT] [Module Zr GT] [DecidableEq G1] [DecidableEq GT]

/-- Too few entries in one of the two vectors: the equality verifier does not get past line 98. -/
theorem equalities_short (E : Curve G1 G2 GT) (e : Equalities G1 G2 GT) (p : AggregatedProof G1)
    (h : p.Vaggr.length < e.V.length ∨ p.Waggr.length < e.W.length) : e.verify E p = none := by
  rcases hv : e.verify E p with _ | b
  · rfl
  exfalso
  rw [Equalities.verify, Option.map_eq_some_iff] at hv
  obtain ⟨⟨b, p'⟩, hv, rfl⟩ := hv
  unfold Equalities.verifyState at hv
  obtain ⟨xs, -, hv⟩ := obind_elim hv
  obtain ⟨x, -, hv⟩ := obind_elim hv
  obtain ⟨ts, -, hv⟩ := obind_elim hv
  obtain ⟨s1, -, hv⟩ := obind_elim hv
  obtain ⟨s2, -, hv⟩ := obind_elim hv
  obtain ⟨A, hA, hv⟩ := obind_elim hv
  obtain ⟨_, -, hv⟩ := obind_elim hv
  obtain ⟨_, -, hv⟩ := obind_elim hv
  obtain ⟨_, -, hv⟩ := obind_elim hv
  obtain ⟨B, hB, hv⟩ := obind_elim hv
  unfold Gv.add at hA hB
  split_ifs at hA hB with hl hl'
  simp only [Gv.mul, List.length_map] at hl hl'
  omega

theorem equalities_cut (E : Curve G1 G2 GT) (hE : E.Lawful) (e : Equalities G1 G2 GT) (p : AggregatedProof G1)
    (κ : ℕ) (hG : e.PP.G.length = 2 ^ κ) (hH : e.PP.H.length = 2 ^ κ)
    (h : e.verify E p = some true) (LRs' : List G1) (hL : LRs'.length < 2 * κ) :
    e.verify E { p with IPP := { p.IPP with LRs := LRs' } } = none := by
  rw [Equalities.verify, Option.map_eq_some_iff] at h
  obtain ⟨⟨b, p'⟩, h, rfl⟩ := h
  rw [Equalities.verify, Option.map_eq_none_iff]
  unfold Equalities.verifyState at h ⊢
  obtain ⟨xs, e1, h⟩ := obind_elim h
  obtain ⟨x, e2, h⟩ := obind_elim h
  obtain ⟨ts, e3, h⟩ := obind_elim h
  obtain ⟨s1, e4, h⟩ := obind_elim h
  obtain ⟨s2, e5, h⟩ := obind_elim h
  obtain ⟨A, e6, h⟩ := obind_elim h
  obtain ⟨_, e7, h⟩ := obind_elim h
  obtain ⟨_, e8, h⟩ := obind_elim h
  obtain ⟨n1, e9, h⟩ := obind_elim h
  obtain ⟨B, e10, h⟩ := obind_elim h
  obtain ⟨_, e11, h⟩ := obind_elim h
  obtain ⟨_, e12, h⟩ := obind_elim h
  obtain ⟨n2, e13, h⟩ := obind_elim h
  obtain ⟨d1, e14, h⟩ := obind_elim h
  obtain ⟨_, e15, h⟩ := obind_elim h
  obtain ⟨_, e16, h⟩ := obind_elim h
  obtain ⟨d2, e17, h⟩ := obind_elim h
  dsimp only at h
  refine obind_step e1 (obind_step e2 (obind_step e3 (obind_step e4 (obind_step e5 (obind_step e6 (obind_step e7 (obind_step e8
    (obind_step e9 (obind_step e10 (obind_step e11 (obind_step e12 (obind_step e13 (obind_step e14 (obind_step e15
    (obind_step e16 (obind_step e17 ?_))))))))))))))))
  dsimp only
  split_ifs at h ⊢
  · simp at h
  obtain ⟨_, f1, h⟩ := obind_elim h
  obtain ⟨_, f2, h⟩ := obind_elim h
  obtain ⟨_, f3, h⟩ := obind_elim h
  obtain ⟨_, f4, h⟩ := obind_elim h
  obtain ⟨_, f5, h⟩ := obind_elim h
  obtain ⟨q, hq, h⟩ := obind_elim h
  refine obind_step f1 (obind_step f2 (obind_step f3 (obind_step f4 (obind_step f5 (obind_step hq (obind_none ?_))))))
  obtain ⟨q', hq', qG, qH⟩ := ipaParams_eq E e.PP (by omega)
  rw [hq', Option.some.injEq] at hq
  subst hq
  rw [ipp_none_iff E hE q' κ (by rw [qG, hG]) (by rw [qH, hH])]
  exact hL

end PoL.Poe

namespace PoL.Pol
open BP Spec

variable {G1 G2 GT : Type} [AddCommGroup G1] [Module Zr G1] [AddCommGroup G2] [Module Zr G2]
  [AddCommGroup GT] [Module Zr GT] [DecidableEq G1] [DecidableEq GT]

/-- A round that panics after rounds that are passed stops the loop. -/
theorem verifyLoop_stuck (E : Curve G1 G2 GT) (lp : LiabilityProof G1) (pp : PublicParams G1 G2 GT) (n j : ℕ)
    (hbad : (j + 1 < n ∧ lp.V.length ≤ j + 1) ∨ lp.rangeProofs[j]? = none ∨ lp.V[j]? = none ∨
      ∃ rp C, lp.rangeProofs[j]? = some rp ∧ lp.V[j]? = some C ∧ verifyRange E pp.RPPP rp C = none) :
    ∀ (d i rest : ℕ), i + d = j → d < rest → (∀ i', i ≤ i' → i' < j → RoundOk E pp lp n i') →
      lp.verifyLoop E pp n i rest false = none := by
  intro d
  induction d with
  | zero =>
    intro i rest hi hrest _
    obtain ⟨rest, rfl⟩ : ∃ r, rest = r + 1 := ⟨rest - 1, by omega⟩
    rw [Nat.add_zero] at hi
    subst hi
    unfold LiabilityProof.verifyLoop
    split_ifs with h0 h1 h2
    · rfl
    all_goals
      rcases hbad with hb | hb | hb | ⟨rp, C, hrp, hC, hb⟩
      · exact absurd hb h0
      · exact obind_none hb
      · rcases hrp : lp.rangeProofs[i]? with _ | rp
        · rfl
        · exact obind_step rfl (obind_none hb)
      · exact obind_step hrp (obind_step hC (obind_none hb))
  | succ d ih =>
    intro i rest hi hrest hok
    obtain ⟨rest, rfl⟩ : ∃ r, rest = r + 1 := ⟨rest - 1, by omega⟩
    have hnext := ih (i + 1) rest (by omega) (by omega) (fun i' h1 h2 => hok i' (by omega) h2)
    obtain ⟨h1, ⟨rp, C, hrp, hC, hv⟩, h2, h3⟩ := hok i le_rfl (by omega)
    unfold LiabilityProof.verifyLoop
    rw [if_neg (by omega)]
    refine obind_step hrp (obind_step hC (obind_step hv ?_))
    simp only [Bool.not_true, Bool.or_false]
    split_ifs with h4 h5
    · exact obind_step (h2 h4) (by simpa using hnext)
    · exact obind_step (h3 h4 h5) (by simpa using hnext)
    · exact hnext

end PoL.Pol
