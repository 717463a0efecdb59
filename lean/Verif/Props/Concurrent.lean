import Verif.Proofs.Concurrent
import Verif.Proofs.TreePrivacy
import Verif.Props.Returns
import Verif.Props.Crash

/-!
# C108: `ProveLiability` while a `Set` is running

`τ i` is the number of database writes that `Set` has made when `ProveLiability` reads vertex number `i` of its path.
-/

set_option linter.unusedSectionVars false

namespace PoL.Props
open Spec BP PP Verkle Pol

variable {G1 G2 GT : Type} [AddCommGroup G1] [Module Zr G1] [AddCommGroup G2] [Module Zr G2]
  [AddCommGroup GT] [Module Zr GT] [DecidableEq G1] [DecidableEq GT]

/-- C108: `ProveLiability` that runs while a `Set` is writing returns what it would have returned if the writes had stood
still at one moment between its first and its last read. -/
theorem C108_read_at_one_moment {E : Curve G1 G2 GT} (hE : E.Lawful) {env : Env} (henv : env.Lawful) {α : Zr} {F L : ℕ}
    {ls ls1 ls2 : LiabilitySet G1 G2 GT} (h : NewSet E α F L ls) (hist : List (Str × ℤ)) (id : Str) (n : ℤ)
    (hids : ValidIds ls.tree.id2Path F L (hist ++ [(id, n)])) (h1 : ls.sets E env hist = some ls1)
    (h2 : ls.sets E env (hist ++ [(id, n)]) = some ls2) {l : List State}
    (hl : ls1.tree.crashStates E env id n ls1.s = some l) (id' : Str) (q : List ℕ) (hq : ls.tree.id2Path id' = some q)
    (hw : q ∈ (byPath ls.tree.id2Path hist).map Prod.fst) (τ : ℕ → ℕ) (hτ : Monotone τ) (hτL : ∀ i, τ i ≤ L) :
    ∃ k, τ 0 ≤ k ∧ k ≤ τ (L - 1) ∧ ∀ rnd, ls1.proveLiabilityDuring E env rnd id' (fun i => (l.getD (τ i) ls1.s).db)
      = ({ ls1 with s := l.getD k ls1.s } : LiabilitySet G1 G2 GT).proveLiability E env rnd id' := by
  have hL := h.pp.depth
  obtain ⟨p, hp, -⟩ := hids (id, n) (by simp)
  obtain ⟨old, new, hR⟩ := twoReads hE henv h hist id n hids h1 h2 hl p hp id' q hq hw
  obtain ⟨k, hk, hk0, hk1, hkk⟩ := moment (by omega) τ hτ hτL
  refine ⟨k, hk0, hk1, fun rnd => ?_⟩
  have e1 := hR.getDuring (fun i => (l.getD (τ i) ls1.s).db) _ (fun i hi => hR.reads (τ i) (hτL i) i hi)
  have e2 := hR.getAt (l.getD k ls1.s).db (fun i => if L ≤ i + τ i ∧ q.take i = p.take i then new i else old i) (by
    intro i hi
    rw [hR.reads k hk i hi]
    congr 1
    have := hkk i hi
    have hiff : (L ≤ i + k ∧ q.take i = p.take i) ↔ (L ≤ i + τ i ∧ q.take i = p.take i) := by
      constructor <;> rintro ⟨a, b⟩ <;> exact ⟨by omega, b⟩
    simp only [hiff])
  exact during_of_get ls1 ls1.tree.root _ rnd id' _ e1 e2

/-- C108: what that is.  If nothing of the path that is read has been written by the last read, it is what `ProveLiability`
returns before the `Set`; if everything has been written by the first, it is what it returns afterwards. -/
theorem C108_before_and_after {E : Curve G1 G2 GT} (hE : E.Lawful) {env : Env} (henv : env.Lawful) {α : Zr} {F L : ℕ}
    {ls ls1 ls2 : LiabilitySet G1 G2 GT} (h : NewSet E α F L ls) (hist : List (Str × ℤ)) (id : Str) (n : ℤ)
    (hids : ValidIds ls.tree.id2Path F L (hist ++ [(id, n)])) (h1 : ls.sets E env hist = some ls1)
    (h2 : ls.sets E env (hist ++ [(id, n)]) = some ls2) {l : List State}
    (hl : ls1.tree.crashStates E env id n ls1.s = some l) (p : List ℕ) (hp : ls.tree.id2Path id = some p) (id' : Str)
    (q : List ℕ) (hq : ls.tree.id2Path id' = some q) (hw : q ∈ (byPath ls.tree.id2Path hist).map Prod.fst) (τ : ℕ → ℕ)
    (hτL : ∀ i, τ i ≤ L) :
    ((∀ i < L, L ≤ i + τ i → q.take i ≠ p.take i) → ∀ rnd,
      ls1.proveLiabilityDuring E env rnd id' (fun i => (l.getD (τ i) ls1.s).db) = ls1.proveLiability E env rnd id') ∧
    ((∀ i < L, q.take i = p.take i → L ≤ i + τ i) → ∀ rnd,
      ls1.proveLiabilityDuring E env rnd id' (fun i => (l.getD (τ i) ls1.s).db) = ls2.proveLiability E env rnd id') := by
  obtain ⟨old, new, hR⟩ := twoReads hE henv h hist id n hids h1 h2 hl p hp id' q hq hw
  have e1 := hR.getDuring (fun i => (l.getD (τ i) ls1.s).db) _ (fun i hi => hR.reads (τ i) (hτL i) i hi)
  constructor
  · intro hold rnd
    have e2 : (List.range L).map (fun i => if L ≤ i + τ i ∧ q.take i = p.take i then new i else old i) = (List.range L).map old := by
      apply List.map_congr_left
      intro i hi
      rw [List.mem_range] at hi
      exact if_neg (fun hc => hold i hi hc.1 hc.2)
    rw [e2] at e1
    exact during_of_get ls1 ls1.tree.root ls1.s rnd id' _ e1 hR.get₁
  · intro hnew rnd
    have e2 : (List.range L).map (fun i => if L ≤ i + τ i ∧ q.take i = p.take i then new i else old i) = (List.range L).map new := by
      apply List.map_congr_left
      intro i hi
      rw [List.mem_range] at hi
      by_cases hs : q.take i = p.take i
      · exact if_pos ⟨hnew i hi hs, hs⟩
      · rw [if_neg (by tauto), hR.same i hi hs]
    rw [e2] at e1
    have g2 := hR.get₂
    rw [hR.tree₂] at g2
    have := during_of_get ls1 ls2.tree.root ls2.s rnd id' _ e1 g2
    rw [this, ← hR.tree₂]

/-- C108, partial: if the identifier that is read is below another child of the root than the one that is written,
`ProveLiability` returns what it returns before the `Set` or what it returns afterwards, however the reads and the writes
are interleaved.  Missing: identifiers below the same child (see `C108_violated`). -/
theorem C108_other_child_partial {E : Curve G1 G2 GT} (hE : E.Lawful) {env : Env} (henv : env.Lawful) {α : Zr} {F L : ℕ}
    {ls ls1 ls2 : LiabilitySet G1 G2 GT} (h : NewSet E α F L ls) (hist : List (Str × ℤ)) (id : Str) (n : ℤ)
    (hids : ValidIds ls.tree.id2Path F L (hist ++ [(id, n)])) (h1 : ls.sets E env hist = some ls1)
    (h2 : ls.sets E env (hist ++ [(id, n)]) = some ls2) {l : List State}
    (hl : ls1.tree.crashStates E env id n ls1.s = some l) (p : List ℕ) (hp : ls.tree.id2Path id = some p) (id' : Str)
    (q : List ℕ) (hq : ls.tree.id2Path id' = some q) (hw : q ∈ (byPath ls.tree.id2Path hist).map Prod.fst)
    (hne : q.head? ≠ p.head?) (τ : ℕ → ℕ) (hτL : ∀ i, τ i ≤ L) :
    (∀ rnd, ls1.proveLiabilityDuring E env rnd id' (fun i => (l.getD (τ i) ls1.s).db) = ls1.proveLiability E env rnd id') ∨
    (∀ rnd, ls1.proveLiabilityDuring E env rnd id' (fun i => (l.getD (τ i) ls1.s).db) = ls2.proveLiability E env rnd id') := by
  obtain ⟨c1, c2⟩ := C108_before_and_after hE henv h hist id n hids h1 h2 hl p hp id' q hq hw τ hτL
  have hdiff : ∀ i, 1 ≤ i → q.take i ≠ p.take i := by
    intro i hi hc
    apply hne
    have := congrArg List.head? hc
    rwa [List.head?_take, List.head?_take, if_neg (by omega), if_neg (by omega)] at this
  by_cases h0 : L ≤ τ 0
  · refine Or.inr (c2 fun i hi hs => ?_)
    rcases Nat.eq_zero_or_pos i with rfl | hi0
    · omega
    · exact absurd hs (hdiff i hi0)
  · refine Or.inl (c1 fun i hi hle => ?_)
    rcases Nat.eq_zero_or_pos i with rfl | hi0
    · omega
    · exact hdiff i hi0

/-- C108 is violated: a reader that finds the vertices above depth `c` old and those from depth `c` on new, where the hash of
the vertex at depth `c` is another one than before (so it is on both paths), gets a proof, without an error, that is not accepted under
any root: neither the one before nor the one after the `Set`. -/
theorem C108_violated {E : Curve G1 G2 GT} (hE : E.Lawful) {env : Env} (henv : env.Lawful) {α : Zr} {F L : ℕ}
    {ls ls1 ls2 : LiabilitySet G1 G2 GT} (h : NewSet E α F L ls) (hist : List (Str × ℤ)) (id : Str) (n : ℤ)
    (hids : ValidIds ls.tree.id2Path F L (hist ++ [(id, n)])) (h1 : ls.sets E env hist = some ls1)
    (h2 : ls.sets E env (hist ++ [(id, n)]) = some ls2) (ht1 : totalAmount (byPath ls.tree.id2Path hist) < 2 ^ 63)
    (ht2 : totalAmount (byPath ls.tree.id2Path (hist ++ [(id, n)])) < 2 ^ 63) {l : List State}
    (hl : ls1.tree.crashStates E env id n ls1.s = some l) (p : List ℕ) (hp : ls.tree.id2Path id = some p) (id' : Str)
    (q : List ℕ) (hq : ls.tree.id2Path id' = some q) (hw : q ∈ (byPath ls.tree.id2Path hist).map Prod.fst) (c : ℕ)
    (hc1 : 1 ≤ c) (hcL : c < L)
    (hhash : ∀ x y d, Vertex.fromBytes E (ls1.s.db (keyOf (q.take c))) = some x →
      Vertex.fromBytes E (ls2.s.db (keyOf (q.take c))) = some y → IsHashOf E (hashedAs E x) d → ¬ IsHashOf E (hashedAs E y) d)
    (τ : ℕ → ℕ) (hτL : ∀ i, τ i ≤ L) (hold : ∀ i < c, i + τ i < L) (hnew : ∀ i, c ≤ i → i < L → L ≤ i + τ i)
    (rnd : ProveRand) (hrnd : RandSized F L rnd)
    (hch : RangeChallengesNonzero E env { ls1 with s := l.getD (L - c) ls1.s } rnd id') :
    ∃ lp, ls1.proveLiabilityDuring E env rnd id' (fun i => (l.getD (τ i) ls1.s).db)
        = some (some (latest (byPath ls.tree.id2Path (hist ++ [(id, n)])) q, lp)) ∧
      ∀ V W, lp.verify E ls.pp id' V W ls.tree.id2Path ≠ some true := by
  have hL := h.pp.depth
  obtain ⟨old, new, hR⟩ := twoReads hE henv h hist id n hids h1 h2 hl p hp id' q hq hw
  have hids1 : ValidIds ls.tree.id2Path F L hist := fun e he => hids e (by simp [he])
  obtain ⟨hqL, hlt⟩ := byPath_length hids1 q (List.mem_toFinset.2 hw)
  obtain ⟨hn1, -⟩ := (sets_iff E env hist ls ls1).1 h1
  obtain ⟨hn2, -⟩ := (sets_iff E env _ ls ls2).1 h2
  obtain ⟨fx, hfx⟩ : ∃ fx : ℕ → Verkle.Vertex G1, fx = fun i => if i < c then old i else new i := ⟨_, rfl⟩
  -- the reads
  have hmix : ∀ k i, i < L → (L ≤ i + k ↔ c ≤ i) → (if L ≤ i + k ∧ q.take i = p.take i then new i else old i) = fx i := by
    intro k i hi hk
    rw [hfx]
    dsimp only
    by_cases hci : i < c
    · rw [if_neg (by omega), if_pos hci]
    · rw [if_neg hci]
      by_cases hs : q.take i = p.take i
      · rw [if_pos ⟨by omega, hs⟩]
      · rw [if_neg (by tauto), hR.same i hi hs]
  have e1 := hR.getDuring (fun i => (l.getD (τ i) ls1.s).db) fx (fun i hi => by
    rw [hR.reads (τ i) (hτL i) i hi, hmix (τ i) i hi ⟨fun hle => by by_contra hc; have := hold i (by omega); omega,
      fun hc => hnew i hc hi⟩])
  have e2 := hR.getAt (l.getD (L - c) ls1.s).db fx (fun i hi => by
    rw [hR.reads (L - c) (by omega) i hi, hmix (L - c) i hi (by omega)])
  have hduring := during_of_get ls1 ls1.tree.root (l.getD (L - c) ls1.s) rnd id' _ e1 e2
  have hfo : ∀ i < c, fx i = old i := by intro i hi; rw [hfx]; exact if_pos hi
  have hfn : ∀ i, c ≤ i → fx i = new i := by intro i hi; rw [hfx]; exact if_neg (by omega)
  -- a proof is returned
  have hpi : ∀ i < L, q.getD i 0 < F := by
    intro i hi
    rw [List.getD_eq_getElem?_getD, List.getElem?_eq_getElem (by omega)]
    exact hlt _ (List.getElem_mem _)
  have hread : ReadPath E α F L q fx (latest (byPath ls.tree.id2Path (hist ++ [(id, n)])) q) := by
    refine ⟨fun i hi => ?_, ?_, ?_, ?_⟩
    · by_cases hci : i < c
      · rw [hfo i hci]; exact ((hR.onOld i (by omega)).inner hi).2.1
      · rw [hfn i (by omega)]; exact ((hR.onNew i (by omega)).inner hi).2.1
    · rw [hfn _ (by omega)]; exact ((hR.onNew (L - 1) (by omega)).leaf (by omega)).1
    · intro i hi x hx
      by_cases hci : i < c
      · rw [hfo i hci, (hR.onOld i hi).values] at hx
        exact values_small hn1 ht1 _ x hx
      · rw [hfn i (by omega), (hR.onNew i hi).values] at hx
        exact values_small hn2 ht2 _ x hx
    · have hlast : q.getLastD 0 = q.getD (L - 1) 0 := by
        rw [List.getLastD_eq_getLast?, List.getLast?_eq_getElem?, hqL, List.getD_eq_getElem?_getD]
      have htk : q.take (L - 1) ++ [q.getD (L - 1) 0] = q.take (L - 1 + 1) := by
        rw [List.getD_eq_getElem?_getD, List.getElem?_eq_getElem (by omega), Option.getD_some,
          List.take_append_getElem (by omega)]
      rw [hfn _ (by omega), (hR.onNew (L - 1) (by omega)).values, hlast, getD_map_range_append _ _ _ _ (hpi _ (by omega)), htk,
        Nat.sub_add_cancel (by omega), ← hqL, List.take_length, amountBelow_self hids q hqL]
  have hm0 := latest_nonneg (byPath_nonneg hn2 (id2Path := ls.tree.id2Path)) q
  have hm1 : latest (byPath ls.tree.id2Path (hist ++ [(id, n)])) q < 2 ^ 63 := by
    rw [← amountBelow_self hids q hqL]
    exact lt_of_le_of_lt (amountBelow_le_total (byPath_nonneg hn2) q) ht2
  have hls1 := hR.tree₁
  have hPP : ls1.tree.PP = newPublicParams E α (F + 2) := by rw [hls1]; exact h.tree.pp
  have hfan : ls1.tree.fanOut = F := by rw [hls1]; exact h.tree.fanOut
  have hpp : ls1.pp = ls.pp := by rw [hls1]
  have hidp : ls1.tree.id2Path = ls.tree.id2Path := by rw [hls1]
  obtain ⟨lp, h3, -⟩ := prove_returns hE h.pp { ls1 with s := l.getD (L - c) ls1.s } hPP hfan hpp id' q
    (by rw [hidp]; exact hq) hqL hlt fx _ _ e2 hread hm0 hm1 rnd hrnd hch
  refine ⟨lp, hduring.trans h3, fun V W hv => ?_⟩
  -- the digests do not fit
  have hd := accepted_digests { ls1 with s := l.getD (L - c) ls1.s } hPP hfan (by rw [hidp]; exact hq) hqL hlt fx e2
    (fun i hi => by rw [hread.W i hi]; rfl) hread.W_last h3 (V := V) (W := W) (pp := ls.pp)
    (by rw [hidp]; exact hv) (c - 1) (by omega)
  rw [Nat.sub_add_cancel hc1, hfo (c - 1) (by omega), hfn c le_rfl] at hd
  obtain ⟨y, hy, hyd⟩ := ((hR.onOld (c - 1) (by omega)).inner (by omega)).2.2
  rw [Nat.sub_add_cancel hc1] at hy
  have hy' : old c = y := by simpa [hcL] using hy
  rw [hyd, ← hy'] at hd
  exact hhash _ _ _ (hR.stored₁ c hcL) (hR.stored₂ c hcL) (isHash_of_dig hE rfl) hd

/-! ## The hypotheses can be met -/

/-- For examples: the toy curve with a hash that tells inputs which begin with the point `v` from all others. -/
def splitCurve (v : Zr) : Curve Zr Zr Zr :=
  { toyCurve with sha256 := fun b => if b.take 32 = zrBytes v then toyDigest else [0, 0, 0, 0, 0, 0, 0, 2] ++ List.replicate 24 0 }

theorem splitCurve_sha256 (v : Zr) (b : Bytes) : (splitCurve v).sha256 b
    = if b.take 32 = zrBytes v then toyDigest else [0, 0, 0, 0, 0, 0, 0, 2] ++ List.replicate 24 0 := rfl

theorem splitCurve_lawful (v : Zr) : (splitCurve v).Lawful :=
  { toyCurve_lawful with sha_len := fun b => by rw [splitCurve_sha256]; split_ifs <;> rfl }

theorem splitCurve_genG1 (v : Zr) : (splitCurve v).genG1 = 1 := rfl

theorem splitCurve_hashedAs (v : Zr) (x : Verkle.Vertex Zr) : (hashedAs (splitCurve v) x).take 32 = zrBytes x.V := by
  have h : (splitCurve v).g1Bytes x.V = zrBytes x.V := rfl
  unfold hashedAs
  rw [h, List.take_left' (by simp)]

theorem split_fe : fieldElementFromBytes ([0, 0, 0, 0, 0, 0, 0, 2] ++ List.replicate 24 0) = some (2 * toyChallenge) := by
  have h : feFrom256Bits ([0, 0, 0, 0, 0, 0, 0, 2] ++ List.replicate 24 0) = some ⟨2, 0, 0, 0⟩ := by decide +kernel
  rw [fieldElementFromBytes, h]
  simp [FrElement.toNat, toyChallenge]

theorem splitCurve_sha (v : Zr) (b : Bytes) : ∃ x, x ≠ 0 ∧ fieldElementFromBytes ((splitCurve v).sha256 b) = some x := by
  rw [splitCurve_sha256]
  split_ifs
  · exact ⟨_, toyChallenge_ne, toy_fe⟩
  · exact ⟨_, mul_ne_zero two_ne_zero_zr toyChallenge_ne, split_fe⟩

/-- No challenge of a range proof is zero if no hash is. -/
theorem rangeChallenges_ne_of_sha {E : Curve G1 G2 GT} (hsha : ∀ b, ∃ x, x ≠ 0 ∧ fieldElementFromBytes (E.sha256 b) = some x)
    (pp : RPPP G1) (V : G1) (rp : RangeProof G1) (ipaPP : BP.PP G1) : ∀ x ∈ rangeChallenges E pp V rp ipaPP, x ≠ 0 := by
  have hg : ∀ b, (fieldElementFromBytes (E.sha256 b)).getD 0 ≠ 0 := by
    intro b
    obtain ⟨x, hx, he⟩ := hsha b
    rw [he]; exact hx
  have hr : ∀ (d : Bytes) (n : ℕ) (l : List G1), l.length ≤ n → ∀ x ∈ roundChallenges E d l, x ≠ 0 := by
    intro d n
    induction n with
    | zero =>
      intro l hl x hx
      rw [List.length_eq_zero_iff.1 (Nat.le_zero.1 hl)] at hx
      simp [roundChallenges] at hx
    | succ n ih =>
      intro l hl x hx
      match l with
      | [] => simp [roundChallenges] at hx
      | [_] => simp [roundChallenges] at hx
      | A :: B :: t =>
        rw [roundChallenges, List.mem_cons] at hx
        rcases hx with rfl | hx
        · exact hg _
        · exact ih t (by simp at hl; omega) x hx
  have hi : ∀ (d : Bytes) (Δ : List (G1 × G1 × G1)) (V : G1), ∀ x ∈ irChallenges E d V Δ, x ≠ 0 := by
    intro d Δ
    induction Δ with
    | nil => intro V x hx; simp [irChallenges] at hx
    | cons t Δ ih =>
      obtain ⟨A, B, V'⟩ := t
      intro V x hx
      rw [irChallenges, List.mem_cons] at hx
      rcases hx with rfl | hx
      · exact hg _
      · exact ih V' x hx
  intro x hx
  unfold rangeChallenges at hx
  split at hx
  · rw [List.mem_append, List.mem_cons] at hx
    rcases hx with (rfl | hx) | hx
    · exact hg _
    · exact hi _ _ _ x hx
    · unfold ippChallenges at hx
      split at hx
      · exact hr _ _ _ le_rfl x hx
      · simp at hx
  · simp at hx

/-- A new set over such a curve. -/
theorem split_set (v : Zr) : ∃ ls : LiabilitySet Zr Zr Zr, NewSet (splitCurve v) 2 3 3 ls ∧ ls.tree.id2Path = toyPath ∧
    ls.s = ⟨fun _ => [], 0⟩ := by
  have hM : IsPadded (3 - 1) 2 := ⟨⟨1, by norm_num, by norm_num, by norm_num⟩, by norm_num, fun i _ h => by simpa using h⟩
  obtain ⟨pp, -, h⟩ := fits_of_parts (splitCurve v) 2 3 3 2 (by norm_num) (by norm_num) (by norm_num) (by decide) 2 hM toyPath
  exact ⟨⟨newVerkleTree (splitCurve v) 2 3 toyPath, pp, [], ⟨fun _ => [], 0⟩⟩,
    ⟨newTree_of_newVerkleTree (splitCurve v) 2 3 (by decide) toyPath, h, rfl⟩, rfl, rfl⟩

theorem toyPath_valid (hist : List (Str × ℤ)) (hv : ∀ e ∈ hist, (e.1.map fun ch => ch.toNat - 48).length = 3 ∧
    ∀ x ∈ e.1.map fun ch => ch.toNat - 48, x < 3) : ValidIds toyPath 3 3 hist :=
  fun e he => ⟨_, toyTree_path e.1, hv e he⟩

/-- `000` is set from 10 to 31.  `ProveLiability("001")` reads the root before its last write and the other vertices after theirs, and
gets a proof of the right amount that nobody accepts. -/
example : ∃ (v : Zr) (ls ls1 ls2 : LiabilitySet Zr Zr Zr) (l : List State) (lp : LiabilityProof Zr),
    NewSet (splitCurve v) 2 3 3 ls ∧ ls.sets (splitCurve v) toyEnv [(['0', '0', '0'], 10), (['0', '0', '1'], 5)] = some ls1 ∧
    ls.sets (splitCurve v) toyEnv ([(['0', '0', '0'], 10), (['0', '0', '1'], 5)] ++ [(['0', '0', '0'], 31)]) = some ls2 ∧
    ls1.tree.crashStates (splitCurve v) toyEnv ['0', '0', '0'] 31 ls1.s = some l ∧
    ls1.proveLiabilityDuring (splitCurve v) toyEnv toyRand ['0', '0', '1']
      (fun i => (l.getD (if i = 0 then 1 else 3) ls1.s).db) = some (some (5, lp)) ∧
    ∀ V W, lp.verify (splitCurve v) ls.pp ['0', '0', '1'] V W ls.tree.id2Path ≠ some true := by
  obtain ⟨v, hvdef⟩ : ∃ v : Zr, v = offset 3 3 2 (byPath toyPath [(['0', '0', '0'], 10), (['0', '0', '1'], 5)]) [0]
      + toyEnv.rand (drawAt 3 0 (byPath toyPath [(['0', '0', '0'], 10), (['0', '0', '1'], 5)]) [0]) * 2 ^ (3 + 2) := ⟨_, rfl⟩
  have hE := splitCurve_lawful v
  obtain ⟨ls, h, hid, hs⟩ := split_set v
  have hv1 : ValidIds ls.tree.id2Path 3 3 [(['0', '0', '0'], 10), (['0', '0', '1'], 5)] := by
    rw [hid]; exact toyPath_valid _ (by decide)
  have hv2 : ValidIds ls.tree.id2Path 3 3 ([(['0', '0', '0'], 10), (['0', '0', '1'], 5)] ++ [(['0', '0', '0'], 31)]) := by
    rw [hid]; exact toyPath_valid _ (by decide)
  obtain ⟨ls1, h1⟩ := C43_sets_return hE toyEnv_lawful h _ hv1 (by decide)
  obtain ⟨ls2, h2⟩ := C43_sets_return hE toyEnv_lawful h _ hv2 (by decide)
  obtain ⟨-, t1, s1, hp1, rfl⟩ := (sets_iff _ _ _ ls ls1).1 h1
  obtain ⟨-, t2, s2, hp2, rfl⟩ := (sets_iff _ _ _ ls ls2).1 h2
  have hput := hp2
  rw [vputs_concat, hp1, Option.bind_some] at hput
  obtain ⟨l, hl, -⟩ := C61_crash_states h.tree.root _ _ _ hp1 hput [0, 0, 0] (by rw [hid]; rfl)
  obtain ⟨x, hx, hxV, -, hxW⟩ := stored_public hE toyEnv_lawful h.tree (L := 3) (by decide) _ hv1 hp1 [0] (by decide)
    ⟨([0, 0, 0], 10), by rw [hid]; decide, by decide⟩
  obtain ⟨y, hy, hyV, -, hyW⟩ := stored_public hE toyEnv_lawful h.tree (L := 3) (by decide) _ hv2 hp2 [0] (by decide)
    ⟨([0, 0, 0], 10), by rw [hid]; decide, by decide⟩
  rw [hid, hs] at hxV hyV
  have hxv : x.V = v := by rw [hxV, hvdef, splitCurve_genG1, smul_eq_mul, mul_one]
  have hyv : y.V ≠ v := by
    rw [hyV, hvdef, splitCurve_genG1, smul_eq_mul, mul_one]
    have hd : drawAt 3 0 (byPath toyPath ([(['0', '0', '0'], 10), (['0', '0', '1'], 5)] ++ [(['0', '0', '0'], 31)])) [0]
        = drawAt 3 0 (byPath toyPath [(['0', '0', '0'], 10), (['0', '0', '1'], 5)]) [0] := by decide
    rw [show (⟨fun _ => [], 0⟩ : State).tick = 0 from rfl, hd]
    intro hc
    have hc := add_right_cancel hc
    unfold offset at hc
    rw [if_neg (by decide), if_neg (by decide)] at hc
    revert hc
    decide +kernel
  have hhx : (splitCurve v).sha256 (hashedAs (splitCurve v) x) = toyDigest := by
    rw [splitCurve_sha256, splitCurve_hashedAs, hxv, if_pos rfl]
  have hhy : (splitCurve v).sha256 (hashedAs (splitCurve v) y) = [0, 0, 0, 0, 0, 0, 0, 2] ++ List.replicate 24 0 := by
    rw [splitCurve_sha256, splitCurve_hashedAs, if_neg (fun hc => hyv (zrBytes_injective hc))]
  obtain ⟨lp, h3, h4⟩ := C108_violated hE toyEnv_lawful h [(['0', '0', '0'], 10), (['0', '0', '1'], 5)] ['0', '0', '0'] 31 hv2 h1 h2
    (by rw [hid]; decide) (by rw [hid]; decide) hl [0, 0, 0] (by rw [hid]; rfl) ['0', '0', '1'] [0, 0, 1] (by rw [hid]; rfl)
    (by rw [hid]; decide) 1 le_rfl (by decide) (by
      intro x' y' d hx' hy' hdx hdy
      obtain rfl : x = x' := Option.some.inj ((load_fromBytes hx).symm.trans hx')
      obtain rfl : y = y' := Option.some.inj ((load_fromBytes hy).symm.trans hy')
      unfold IsHashOf at hdx hdy
      rw [hhx, toy_fe, Option.some.injEq] at hdx
      rw [hhy, split_fe, Option.some.injEq, ← hdx] at hdy
      have : toyChallenge = 0 := by linear_combination hdy
      exact toyChallenge_ne this)
    (fun i => if i = 0 then 1 else 3) (by intro i; split_ifs <;> omega)
    (by intro i hi; split_ifs <;> omega) (by intro i hi hi3; split_ifs <;> omega) toyRand toyRand_sized
    (fun _ _ _ v' rp ipaPP _ _ _ => rangeChallenges_ne_of_sha (splitCurve_sha v) _ v'.V rp ipaPP)
  have h5 : latest (byPath ls.tree.id2Path ([(['0', '0', '0'], 10), (['0', '0', '1'], 5)] ++ [(['0', '0', '0'], 31)])) [0, 0, 1] = 5 := by
    rw [hid]; decide
  rw [h5] at h3
  exact ⟨v, ls, _, _, l, lp, h, h1, h2, hl, h3, h4⟩

end PoL.Props
