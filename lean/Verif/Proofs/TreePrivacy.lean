import Verif.Props.Exact
import Verif.Proofs.Mask

/-! The commitments of the tree as functions of the amounts and of the scalars drawn. -/

set_option linter.unusedSectionVars false

namespace PoL.Verkle
open Spec PP Sparse

variable {G1 G2 GT : Type} [AddCommGroup G1] [Module Zr G1] [AddCommGroup G2] [Module Zr G2]
  [AddCommGroup GT] [Module Zr GT] [DecidableEq G1] [DecidableEq GT]

/-- The number of the scalar drawn for the vertex at `q`: counted from `t0`, each write draws `L` numbers, from the
deepest vertex of its path to the root, and the blinding factor of a vertex is that of the first write below it. -/
def drawAt (L t0 : ℕ) (h : List (List ℕ × ℤ)) (q : List ℕ) : ℕ :=
  t0 + L * (h.findIdx fun e => decide (q <+: e.1)) + (L - 1 - q.length)

theorem findIdx_touched {h : List (List ℕ × ℤ)} {q : List ℕ} :
    (h.findIdx fun e => decide (q <+: e.1)) < h.length ↔ touched h q := by
  rw [List.findIdx_lt_length]
  simp [touched]

theorem drawAt_bounds {L t0 : ℕ} {h : List (List ℕ × ℤ)} {q : List ℕ} (hq : touched h q) (hL : q.length < L) :
    t0 ≤ drawAt L t0 h q ∧ drawAt L t0 h q < t0 + L * h.length := by
  have h1 := findIdx_touched.2 hq
  have h2 : L * ((h.findIdx fun e => decide (q <+: e.1)) + 1) ≤ L * h.length := Nat.mul_le_mul_left _ h1
  unfold drawAt
  rw [Nat.mul_succ] at h2
  omega

theorem drawAt_inj {L t0 : ℕ} {h : List (List ℕ × ℤ)} {q r : List ℕ} (hq : touched h q) (hr : touched h r)
    (hqL : q.length < L) (hrL : r.length < L) (heq : drawAt L t0 h q = drawAt L t0 h r) : q = r := by
  unfold drawAt at heq
  have h1 := findIdx_touched.2 hq
  have h2 := findIdx_touched.2 hr
  set i := h.findIdx fun e => decide (q <+: e.1) with hi
  set j := h.findIdx fun e => decide (r <+: e.1) with hj
  have key : ∀ a b c d : ℕ, c < L → d < L → L * a + c = L * b + d → a = b := by
    intro a b c d hc hd he
    have e1 : (L * a + c) / L = a := by
      rw [Nat.mul_add_div (by omega), Nat.div_eq_of_lt hc, Nat.add_zero]
    have e2 : (L * b + d) / L = b := by
      rw [Nat.mul_add_div (by omega), Nat.div_eq_of_lt hd, Nat.add_zero]
    rw [← e1, ← e2, he]
  have hij : i = j := key i j (L - 1 - q.length) (L - 1 - r.length) (by omega) (by omega) (by omega)
  rw [← hij] at heq
  have hlen : q.length = r.length := by omega
  have p1 : q <+: h[i].1 := by
    have := List.findIdx_getElem (xs := h) (p := fun e => decide (q <+: e.1)) (w := h1)
    simpa [hi] using this
  have p2 : r <+: h[i].1 := by
    have := List.findIdx_getElem (xs := h) (p := fun e => decide (r <+: e.1)) (w := h2)
    have e : h[i] = h[j] := by simp [hij]
    rw [e]
    simpa [hj] using this
  exact List.prefix_of_prefix_length_le p1 p2 hlen.le |>.eq_of_length hlen

theorem drawAt_congr (L t0 : ℕ) {h h' : List (List ℕ × ℤ)} (hh : h.map Prod.fst = h'.map Prod.fst) (q : List ℕ) :
    drawAt L t0 h q = drawAt L t0 h' q := by
  unfold drawAt
  have : ∀ l : List (List ℕ × ℤ), (l.findIdx fun e => decide (q <+: e.1)) = (l.map Prod.fst).findIdx fun p => decide (q <+: p) := by
    intro l
    rw [List.findIdx_map]
    rfl
  rw [this h, this h', hh]

theorem touched_congr {h h' : List (List ℕ × ℤ)} (hh : h.map Prod.fst = h'.map Prod.fst) (q : List ℕ) :
    touched h q ↔ touched h' q := by
  have : ∀ l : List (List ℕ × ℤ), touched l q ↔ ∃ p ∈ l.map Prod.fst, q <+: p := by
    intro l
    simp [touched]
  rw [this h, this h', hh]

/-- The blinding factor of a stored vertex is the scalar drawn by the first write below it. -/
theorem stored_blinding {E : Curve G1 G2 GT} (hE : E.Lawful) {env : Env} (henv : env.Lawful) {α : Zr} {F : ℕ}
    {t t' : Tree G1 G2 GT} (ht : NewTree E α F t) {L : ℕ} (hL : 1 ≤ L) (hist : List (Str × ℤ)) {s s' : State}
    (hids : ValidIds t.id2Path F L hist) (h : t.puts E env hist s = some (t', s')) :
    s'.tick = s.tick + L * hist.length ∧
    ∀ q : List ℕ, q.length < L → touched (byPath t.id2Path hist) q → ∃ x : Vertex G1, load E s'.db (keyOf q) = some x ∧
      x.blindingFactor = env.rand (drawAt L s.tick (byPath t.id2Path hist) q) := by
  induction hist using List.reverseRecOn generalizing t' s' with
  | nil =>
    rw [vputs_nil, Option.some.injEq, Prod.mk.injEq] at h
    refine ⟨by rw [h.2]; simp, ?_⟩
    rintro q - ⟨e, he, -⟩
    simp [byPath] at he
  | append_singleton hist e ih =>
    rw [vputs_concat] at h
    obtain ⟨⟨t1, s1⟩, h1, h2⟩ := Option.bind_eq_some_iff.1 h
    obtain ⟨T0, T1⟩ := ih (fun e he => hids e (by simp [he])) h1
    obtain ⟨p, hp, hpL, -⟩ := hids e (by simp)
    obtain ⟨b1, b2, b3⟩ := put_blinding hE henv ht.bound.le ht.pp ht.fanOut ht.root hL hids h1 h2 p hp
    have hb : byPath t.id2Path (hist ++ [e]) = byPath t.id2Path hist ++ [(p, e.2)] := by simp [byPath, hp]
    have hbl : (byPath t.id2Path hist).length = hist.length := by simp [byPath]
    refine ⟨by rw [List.length_append, List.length_singleton, Nat.mul_succ]; omega, ?_⟩
    intro q hqL hqt
    rw [hb] at hqt ⊢
    by_cases hq0 : touched (byPath t.id2Path hist) q
    · obtain ⟨x, hx, hbf⟩ := T1 q hqL hq0
      have hd : drawAt L s.tick (byPath t.id2Path hist ++ [(p, e.2)]) q = drawAt L s.tick (byPath t.id2Path hist) q := by
        unfold drawAt
        rw [List.findIdx_append, if_pos (findIdx_touched.2 hq0)]
      rw [hd]
      by_cases hpre : q <+: p
      · obtain ⟨y, hy, hy', -⟩ := b3 q hpre hqL
        obtain ⟨x0, hx0, hb0⟩ := hy' hq0
        rw [hx, Option.some.injEq] at hx0
        subst hx0
        exact ⟨y, hy, by rw [hb0, hbf]⟩
      · exact ⟨x, by rw [load_congr E (b2 q hpre)]; exact hx, hbf⟩
    · have hpre : q <+: p := by
        obtain ⟨e', he', hpre⟩ := hqt
        rcases List.mem_append.1 he' with he' | he'
        · exact absurd ⟨e', he', hpre⟩ hq0
        · simp only [List.mem_singleton] at he'
          subst he'
          exact hpre
      obtain ⟨y, hy, -, hy'⟩ := b3 q hpre hqL
      refine ⟨y, hy, ?_⟩
      rw [hy' hq0, T0]
      unfold drawAt
      rw [List.findIdx_append, if_neg (mt findIdx_touched.1 hq0), hbl]
      simp [hpre]

theorem expo_concat (α : Zr) (l : List Zr) (b : Zr) : expo α (l ++ [b]) = expo α l + b * α ^ (l.length + 1) := by
  unfold expo
  rw [List.length_append, List.length_singleton, Finset.sum_range_succ]
  congr 1
  · refine Finset.sum_congr rfl fun j hj => ?_
    rw [Finset.mem_range] at hj
    rw [List.getD_eq_getElem?_getD, List.getElem?_append_left hj, ← List.getD_eq_getElem?_getD]
  · rw [List.getD_eq_getElem?_getD, List.getElem?_append_right le_rfl]
    simp

/-- The part of the exponent of a commitment that does not come from the blinding factor. -/
noncomputable def offset (F L : ℕ) (α : Zr) (h : List (List ℕ × ℤ)) (q : List ℕ) : Zr :=
  expo α (((List.range F).map fun j => intToZr (amountBelow h (q ++ [j]))) ++ [intToZr (amountBelow h q)])
    + if q.length + 1 = L then (deviation F h q).eval α else 0

open Classical in
/-- The digests of a stored vertex. -/
noncomputable def digestsAt (E : Curve G1 G2 GT) (db : Db) (h : List (List ℕ × ℤ)) (q : List ℕ) : ℕ → Option Zr :=
  fun j => if touched h (q ++ [j]) then some (((load E db (keyOf (q ++ [j]))).map (dig E)).getD 0) else none

/-- Everything public about a stored vertex. -/
theorem stored_public {E : Curve G1 G2 GT} (hE : E.Lawful) {env : Env} (henv : env.Lawful) {α : Zr} {F : ℕ}
    {t t' : Tree G1 G2 GT} (ht : NewTree E α F t) {L : ℕ} (hL : 1 ≤ L) (hist : List (Str × ℤ)) {s s' : State}
    (hids : ValidIds t.id2Path F L hist) (h : t.puts E env hist s = some (t', s')) (q : List ℕ) (hqL : q.length < L)
    (hq : touched (byPath t.id2Path hist) q) : ∃ x : Vertex G1, load E s'.db (keyOf q) = some x ∧
      x.V = (offset F L α (byPath t.id2Path hist) q
        + env.rand (drawAt L s.tick (byPath t.id2Path hist) q) * α ^ (F + 2)) • E.genG1 ∧
      (q.length + 1 = L → x.W = none ∧ x.digests = .empty) ∧
      (q.length + 1 < L → x.W = some (com E α (digVec F (digestsAt E s'.db (byPath t.id2Path hist) q))) ∧
        x.digests = mapBelow F (digestsAt E s'.db (byPath t.id2Path hist) q)) := by
  obtain ⟨y, hy, hbf⟩ := (stored_blinding hE henv ht hL hist hids h).2 q hqL hq
  refine ⟨y, hy, ?_⟩
  set hh := byPath t.id2Path hist with hhh
  have hvec : ∀ (vals : ℕ → Option Zr) (bf : Zr), (∀ j < F, (vals j).getD 0 = intToZr (amountBelow hh (q ++ [j]))) →
      expo α (valVec F vals bf) = expo α (((List.range F).map fun j => intToZr (amountBelow hh (q ++ [j])))
        ++ [intToZr (amountBelow hh q)]) + bf * α ^ (F + 2) := by
    intro vals bf hv
    have e1 : valVec F vals bf = (((List.range F).map fun j => intToZr (amountBelow hh (q ++ [j])))
        ++ [intToZr (amountBelow hh q)]) ++ [bf] := by
      unfold valVec
      rw [List.append_assoc]
      congr 1
      · apply List.map_congr_left
        intro j hj
        exact hv j (List.mem_range.1 hj)
      · rw [hhh, amountBelow_split hids q hqL, intToZr, Int.cast_sum]
        simp only [List.cons_append, List.nil_append]
        congr 1
        exact Finset.sum_congr rfl fun j hj => hv j (Finset.mem_range.1 hj)
    rw [e1, expo_concat]
    simp
  by_cases hle : q.length + 1 = L
  · obtain ⟨bf, hl⟩ := leaf_exact hE henv ht.bound.le ht.pp ht.fanOut ht.root hL hids h q hle hq
    rw [hy, Option.some.injEq] at hl
    have hb : bf = env.rand (drawAt L s.tick hh q) := by rw [← hbf, hl]; rfl
    refine ⟨?_, fun _ => by rw [hl]; exact ⟨rfl, rfl⟩, fun hc => by omega⟩
    rw [hl]
    unfold leafVertex com offset
    dsimp only
    rw [hvec _ _ (by
      intro j hj
      rw [hhh, Pol.amountBelow_self hids (q ++ [j]) (by simp; omega)]
      unfold histVals latest
      cases lastPut (byPath t.id2Path hist) (q ++ [j]) <;> simp [intToZr]), if_pos hle, hb, ← add_smul]
    congr 1
    ring
  · obtain ⟨t1, s1, h1, -, -, hgood, -⟩ := puts_good hE henv α F ht.bound.le t ht.pp ht.fanOut ht.root L hL hist s hids
    rw [h, Option.some.injEq, Prod.mk.injEq] at h1
    obtain ⟨rfl, rfl⟩ := h1
    obtain ⟨v, u, hv, hu⟩ := find_touched ht.root hids h q hq
    have hhe : hist ≠ [] := by
      rintro rfl
      obtain ⟨e, he, -⟩ := hq
      simp [hhh, byPath] at he
    obtain ⟨v', hv', hg⟩ := hgood hhe
    rw [hv, Option.some.injEq] at hv'
    subst hv'
    have hgu := hg.find q (by omega) u hu
    obtain ⟨n, hn⟩ : ∃ n, L - q.length = n + 1 + 1 := ⟨L - q.length - 2, by omega⟩
    rw [hn, List.nil_append] at hgu
    obtain ⟨-, -, hch, -, h5⟩ := hgu
    obtain ⟨bf, hl⟩ := h5 (by omega)
    rw [hy, Option.some.injEq] at hl
    have hb : bf = env.rand (drawAt L s.tick hh q) := by rw [← hbf, hl]; rfl
    have hfind : ∀ i, Sparse.find (q ++ [i]) v = Sparse.descGet u.desc i := by
      intro i
      rw [Sparse.find_append, hu, Option.bind_some, Sparse.find_cons]
      cases Sparse.descGet u.desc i <;> rfl
    have hdesc : ∀ j, (Sparse.descGet u.desc j).isSome ↔ touched hh (q ++ [j]) := by
      intro j
      rw [← hfind]
      constructor
      · intro hs
        obtain ⟨w, hw⟩ := Option.isSome_iff_exists.1 hs
        exact find_iff_touched ht.root hids h _ v w hv hw
      · intro hs
        obtain ⟨v2, w, hv2, hw⟩ := find_touched ht.root hids h _ hs
        rw [hv, Option.some.injEq] at hv2
        subst hv2
        rw [hw]; rfl
    have hdigs : childDigs E s'.db q u.desc = digestsAt E s'.db hh q := by
      funext j
      unfold childDigs digestsAt
      cases hd : Sparse.descGet u.desc j with
      | none =>
        rw [if_neg (by rw [← hdesc, hd]; simp)]; rfl
      | some w => rw [if_pos (by rw [← hdesc, hd]; rfl)]; rfl
    rw [hdigs] at hl
    refine ⟨?_, fun hc => by omega, fun _ => by rw [hl]; exact ⟨rfl, rfl⟩⟩
    rw [hl]
    unfold innerVertex com offset
    dsimp only
    rw [hvec _ _ ?_, if_neg hle, hb, add_zero]
    intro j hj
    unfold childVals
    cases hd : Sparse.descGet u.desc j with
    | none =>
      rw [Pol.amountBelow_untouched hh _ (by rw [← hdesc, hd]; simp)]
      simp [intToZr]
    | some w =>
      rw [Option.map_some, Option.getD_some,
        total_eq ht.root hids h v hv (n + 1) (q ++ [j]) (by simp; omega) w (by rw [hfind, hd])]

/-- If the commitments to values of two trees of the same shape agree, everything public about their vertices agrees. -/
theorem public_eq {E : Curve G1 G2 GT} {F L : ℕ} {α : Zr} {h h' : List (List ℕ × ℤ)} {db db' : Db} (ht : ∀ q, touched h q ↔ touched h' q)
    (fx fx' : List ℕ → Vertex G1) (hx : ∀ q, q.length < L → touched h q → load E db (keyOf q) = some (fx q))
    (hx' : ∀ q, q.length < L → touched h q → load E db' (keyOf q) = some (fx' q))
    (hl : ∀ q, touched h q → q.length + 1 = L → (fx q).W = none ∧ (fx q).digests = .empty)
    (hl' : ∀ q, touched h q → q.length + 1 = L → (fx' q).W = none ∧ (fx' q).digests = .empty)
    (hi : ∀ q, touched h q → q.length + 1 < L → (fx q).W = some (com E α (digVec F (digestsAt E db h q))) ∧
        (fx q).digests = mapBelow F (digestsAt E db h q))
    (hi' : ∀ q, touched h q → q.length + 1 < L → (fx' q).W = some (com E α (digVec F (digestsAt E db' h' q))) ∧
        (fx' q).digests = mapBelow F (digestsAt E db' h' q))
    (hV : ∀ q, q.length < L → touched h q → (fx q).V = (fx' q).V) (n : ℕ) :
    ∀ q, q.length + n + 1 = L → touched h q → (fx q).W = (fx' q).W ∧ (fx q).digests = (fx' q).digests := by
  induction n with
  | zero =>
    intro q hq htq
    rw [(hl q htq hq).1, (hl q htq hq).2, (hl' q htq hq).1, (hl' q htq hq).2]
    exact ⟨rfl, rfl⟩
  | succ n ih =>
    intro q hq htq
    have e : digestsAt E db h q = digestsAt E db' h' q := by
      funext j
      unfold digestsAt
      by_cases hj : touched h (q ++ [j])
      · have hlen : (q ++ [j]).length < L := by simp; omega
        rw [if_pos hj, if_pos ((ht _).1 hj), hx _ hlen hj, hx' _ hlen hj, Option.map_some, Option.map_some]
        have := (ih (q ++ [j]) (by simp; omega) hj).1
        have hv := hV _ hlen hj
        unfold dig Vertex.digest
        rw [this, hv]
      · rw [if_neg hj, if_neg (mt (ht _).2 hj)]
    rw [(hi q htq (by omega)).1, (hi q htq (by omega)).2, (hi' q htq (by omega)).1, (hi' q htq (by omega)).2, e]
    exact ⟨rfl, rfl⟩

end PoL.Verkle
