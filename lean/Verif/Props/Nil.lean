import Verif.Proofs.NilUsed
import Verif.Props.Pointers

/-!
# C118: nil pointers in proofs

Whoever sends a proof may leave out a point, so that the pointer in its place is `nil`.  C118: no proof is accepted for that.  If
`Verify` returns at all, it returns what it returns with any points in the places of the `nil`s; so what the other properties say
about accepted proofs holds for proofs with `nil`s as well.  And an accepted proof has no `nil` among the points that count.
-/

namespace PoL.Props

open Spec Ptr

variable {G1 G2 GT : Type} [AddCommGroup G1] [Module Zr G1] [AddCommGroup G2] [Module Zr G2] [AddCommGroup GT] [Module Zr GT]
  [DecidableEq G1] [DecidableEq GT] {E : Curve G1 G2 GT} {gl : Globals}

omit [AddCommGroup G1] [Module Zr G1] [AddCommGroup G2] [Module Zr G2] [AddCommGroup GT] [Module Zr GT] [DecidableEq G1] [DecidableEq GT] in
theorem same_result {α : Type} {m : Run (Cell G1 G2 GT) α} {h h₁ : Mem (Cell G1 G2 GT)} {out : Option α} {a : α}
    (hm : Agrees m h out (fun _ a b => a = b)) (e : m h = some (a, h₁)) : out = some a := by
  unfold Agrees at hm
  rw [e] at hm
  cases out with
  | none => exact hm.elim
  | some b => exact congrArg some hm.2.symm

/-- C118 for `Verify` of a liability: with any points in the places of the `nil`s (memory `h'`, in which the pointers stand for the
parameters `q`, the proof `lp'` and the root `V'`, `W'`), the model with values returns the same. -/
theorem C118_liability_verdict {h h' h₁ : Mem (Cell G1 G2 GT)} (f : Filled h h') (hg : GlobalsAt E h' gl)
    {p : Pol.PublicParams Ref Ref Ref} {q : Pol.PublicParams G1 G2 GT} (hp : PubAt h' p q)
    {lp : Pol.LiabilityProof Ref} {lp' : Pol.LiabilityProof G1} (hlp : LpAt h' lp lp') {V W : Ref} {V' W' : G1}
    (hV : At kG1 h' V V') (hW : At kG1 h' W W') (id : Str) (id2Path : Str → Option (List ℕ)) {b : Bool}
    (e : Ptr.Pol.verify E gl lp p id V W id2Path h = some (b, h₁)) : lp'.verify E q id V' W' id2Path = some b := by
  obtain ⟨h₁', e', _⟩ := ((Ptr.Pol.mono_verify gl lp p id V W id2Path).out e).2 h' f
  exact same_result (Pol.agrees_verify hg hp hlp id hV hW id2Path) e'

/-- C118 for `Verify` of a total. -/
theorem C118_total_verdict {h h' h₁ : Mem (Cell G1 G2 GT)} (f : Filled h h') (hg : GlobalsAt E h' gl)
    {p : Pol.PublicParams Ref Ref Ref} {q : Pol.PublicParams G1 G2 GT} (hp : PubAt h' p q)
    {t : Pol.TotalProof Ref} {t' : Pol.TotalProof G1} (ht : TotalAt h' t t') {V : Ref} {V' : G1} (hV : At kG1 h' V V') {b : Bool}
    (e : Ptr.Pol.totalVerify E gl t p V h = some (b, h₁)) : t'.verify E q V' = some b := by
  obtain ⟨h₁', e', _⟩ := ((Ptr.Pol.mono_totalVerify gl t p V).out e).2 h' f
  exact same_result (Pol.agrees_totalVerify hg hp ht hV) e'

/-- C118: an accepted proof of a liability has no `nil` among the points that count (`liabilityPoints`), nor has the root. -/
theorem C118_liability_no_nil {h h₁ : Mem (Cell G1 G2 GT)} {p : Pol.PublicParams Ref Ref Ref} {k : Rounds} (hk : RoundsOf p k)
    {lp : Pol.LiabilityProof Ref} {V W : Ref} {id : Str} {id2Path : Str → Option (List ℕ)} {path : List ℕ} (hpath : id2Path id = some path)
    (e : Ptr.Pol.verify E gl lp p id V W id2Path h = some (true, h₁)) :
    ∀ r ∈ liabilityPoints lp path.length k ++ [V, W], ¬IsNil h r :=
  fun _ hr => Ptr.Pol.verify_used gl lp p id V W id2Path hk hpath e hr

omit [DecidableEq G1] in
/-- C118: with a `nil` in it, no proof of a total is answered, and neither is any for a root that is `nil`. -/
theorem C118_total_no_nil {h : Mem (Cell G1 G2 GT)} (p : Pol.PublicParams Ref Ref Ref) {t : Pol.TotalProof Ref} {V : Ref}
    (hn : IsNil h t.liabilityProof ∨ IsNil h V) : Ptr.Pol.totalVerify E gl t p V h = none := by
  cases e : Ptr.Pol.totalVerify E gl t p V h with
  | none => rfl
  | some o =>
    rcases hn with hn | hn
    · exact absurd hn ((Ptr.PP.needs_verify_proof (P := fun _ => True) gl _ _ _ _ _).out (h₁ := o.2) (a := o.1) e trivial)
    · exact absurd hn ((Ptr.PP.needs_verify_commitment (P := fun _ => True) gl _ _ _ _ _).out (h₁ := o.2) (a := o.1) e trivial)

omit [DecidableEq G1] [DecidableEq GT] in
/-- The numbers of rounds for parameters as the library makes them: `log2` of the fan-out plus one, 6 more in the range proof. -/
theorem C118_rounds {h : Mem (Cell G1 G2 GT)} {p : Pol.PublicParams Ref Ref Ref} {q : Pol.PublicParams G1 G2 GT} (hp : PubAt h p q)
    {α : Zr} {F L : ℕ} (hq : Fits E α F L q) :
    ∃ k, RoundsOf p k ∧ F + 1 = 2 ^ k.reduction ∧ k.range = k.reduction + 6 ∧ k.sum = k.reduction ∧ L - 1 ≤ 2 ^ k.equality := by
  obtain ⟨k, -, -, hk⟩ := hq.power
  obtain ⟨M, hM, hG, -⟩ := hq.poe_size
  obtain ⟨⟨j, -, -, hj⟩, hle, -⟩ := hM
  have hlen : (q.PPPP.G1s.take (F + 1)).length = F + 1 := by
    rw [hq.PPPP, List.length_take]
    simp [PP.newPublicParams, PP.setupDigest]
    omega
  refine ⟨⟨k, k + 6, k, j⟩, ⟨?_, ?_, ?_, ?_⟩, hk, rfl, rfl, hj ▸ hle⟩
  · rw [hp.RPPP.Gs.length, hq.rp_Gs, hlen, hk]
  · rw [hp.RPPP.Hs.length, hq.rp_Hs, hk, pow_add]
    rfl
  · rw [hp.SAPP.Gs.length, hq.sa_Gs, hlen, hk]
  · rw [hp.POEPP.G.length, hG, hj]

/-! ## The hypotheses can be met -/

/-- A memory with the variables of the packages, parameters for vectors of length 1 and trapdoor 2, the commitment to 7 (14) and its
opening (0). -/
def nilMemory (opening : Cell Zr Zr Zr) : Mem (Cell Zr Zr Zr) :=
  ⟨[.g1 0, .g1 1, .g2 1, .gt 1, .g1 2, .g1 1, .g2 2, .gt 4, .g1 14, opening, .nil], []⟩

/-- The pointers to the package variables in it. -/
def nilGlobals : Globals := ⟨⟨0⟩, ⟨1⟩, ⟨2⟩, ⟨3⟩⟩

/-- The parameters in it. -/
def nilParams : Pol.PublicParams Ref Ref Ref :=
  { PPPP := { digest := [], N := 1, G1s := [⟨4⟩, ⟨5⟩], G2s := [⟨6⟩], Gt := ⟨7⟩ }
    SAPP := { digest := [], G := ⟨4⟩, Gs := [], F := ⟨4⟩, H := [], U := ⟨4⟩, b := [], B := ⟨4⟩ }
    RPPP := { digest := [], G := ⟨4⟩, H := ⟨4⟩, F := ⟨4⟩, Gs := [], Hs := [], Fs := [] }
    POEPP := { digest := [], vc := { digest := [], N := 1, G1s := [⟨4⟩, ⟨5⟩], G2s := [⟨6⟩], Gt := ⟨7⟩ }, G := [], H := [], F := ⟨4⟩ }
    fanout := 0 }

/-- The opening is accepted, in a memory with a `nil` that does not count, and a `nil` in its place is not answered. -/
example :
    (Ptr.Pol.totalVerify toyCurve nilGlobals ⟨⟨9⟩, 7⟩ nilParams ⟨8⟩ (nilMemory (.g1 0))).map Prod.fst = some true ∧
    Ptr.Pol.totalVerify toyCurve nilGlobals ⟨⟨9⟩, 7⟩ nilParams ⟨8⟩ (nilMemory .nil) = none ∧
    Filled (nilMemory .nil) (nilMemory (.g1 0)) := by
  refine ⟨?_, C118_total_no_nil nilParams (.inl rfl), ?_⟩
  · decide +kernel
  · constructor
    · unfold nilMemory
      simp
    · rfl

end PoL.Props
