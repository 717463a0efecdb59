import Verif.Props.SameRoot
import Verif.Props.Updates
import Verif.Props.Schedule

/-!
# C131: a liability proof is good for one root only, and goes out of date with it
-/

set_option linter.unusedSectionVars false

namespace PoL.Pol
open Spec BP PP Verkle

variable {G1 G2 GT : Type} [AddCommGroup G1] [Module Zr G1] [AddCommGroup G2] [Module Zr G2]
  [AddCommGroup GT] [Module Zr GT] [DecidableEq G1] [DecidableEq GT]

/-- How one write moves the exponent of the root's `V`. -/
theorem offset_write (F L : ℕ) (hL : 2 ≤ L) (α : Zr) (h : List (List ℕ × ℤ)) (a : ℕ) (ha : a < F) (q : List ℕ) (b : ℤ) :
    offset F L α (h ++ [(a :: q, b)]) [] = offset F L α h []
      + intToZr (b - latest h (a :: q)) * (α ^ (a + 1) + α ^ (F + 1)) := by
  unfold offset
  rw [if_neg (by simp; omega), if_neg (by simp; omega), expo_concat, expo_concat]
  simp only [List.length_map, List.length_range, add_zero, List.nil_append]
  have hroot : amountBelow (h ++ [(a :: q, b)]) [] = amountBelow h [] + (b - latest h (a :: q)) := by
    rw [amountBelow_concat, if_pos List.nil_prefix]
  have hsum : expo α ((List.range F).map fun j => intToZr (amountBelow (h ++ [(a :: q, b)]) [j]))
      = expo α ((List.range F).map fun j => intToZr (amountBelow h [j])) + intToZr (b - latest h (a :: q)) * α ^ (a + 1) := by
    unfold expo
    simp only [List.length_map, List.length_range]
    have : ∀ j ∈ Finset.range F, ((List.range F).map fun j => intToZr (amountBelow (h ++ [(a :: q, b)]) [j])).getD j 0 * α ^ (j + 1)
        = ((List.range F).map fun j => intToZr (amountBelow h [j])).getD j 0 * α ^ (j + 1)
          + if j = a then intToZr (b - latest h (a :: q)) * α ^ (a + 1) else 0 := by
      intro j hj
      rw [Finset.mem_range] at hj
      rw [List.getD_eq_getElem?_getD, List.getD_eq_getElem?_getD, List.getElem?_map, List.getElem?_map, List.getElem?_range hj]
      simp only [Option.map_some, Option.getD_some]
      rw [amountBelow_concat]
      by_cases hja : j = a
      · subst hja
        simp [intToZr]
        ring
      · have : ¬ ([j] <+: a :: q) := by
          rw [List.cons_prefix_cons]
          exact fun hc => hja hc.1
        simp [this, hja]
    rw [Finset.sum_congr rfl this, Finset.sum_add_distrib, Finset.sum_ite_eq' (Finset.range F), if_pos (Finset.mem_range.2 ha)]
  rw [hsum, hroot]
  simp only [intToZr, Int.cast_add]
  ring

/-- The `V` that is stored for the root, before and after one more write. -/
theorem root_moves {E : Curve G1 G2 GT} (hE : E.Lawful) {env : Env} (henv : env.Lawful) {α : Zr} {F L : ℕ}
    {ls ls1 ls2 : LiabilitySet G1 G2 GT} (h : NewSet E α F L ls) (hist : List (Str × ℤ)) (hne : hist ≠ []) (other : Str) (b : ℤ)
    (hids : ValidIds ls.tree.id2Path F L (hist ++ [(other, b)])) (h1 : ls.sets E env hist = some ls1)
    (h2 : ls1.sets E env [(other, b)] = some ls2) (a : ℕ) (q : List ℕ) (ho : ls.tree.id2Path other = some (a :: q))
    (x1 x2 : Vertex G1) (hx1 : Vertex.fromBytes E (ls1.s.db []) = some x1) (hx2 : Vertex.fromBytes E (ls2.s.db []) = some x2) :
    x2.V = x1.V + (intToZr (b - latest (byPath ls.tree.id2Path hist) (a :: q)) * (α ^ (a + 1) + α ^ (F + 1))) • E.genG1 := by
  have hL := h.pp.depth
  have hids1 : ValidIds ls.tree.id2Path F L hist := fun e he => hids e (by simp [he])
  have h3 : ls.sets E env (hist ++ [(other, b)]) = some ls2 := by rw [sets_append, h1]; exact h2
  have haF : a < F := by
    obtain ⟨p1, hp1, -, hlt⟩ := hids (other, b) (by simp)
    rw [ho, Option.some.injEq] at hp1
    subst hp1
    exact hlt a (by simp)
  have hb : byPath ls.tree.id2Path (hist ++ [(other, b)]) = byPath ls.tree.id2Path hist ++ [(a :: q, b)] := by simp [byPath, ho]
  obtain ⟨e, tl, rfl⟩ := List.exists_cons_of_ne_nil hne
  obtain ⟨-, t, s, hputs, rfl⟩ := (sets_iff E env _ ls ls1).1 h1
  obtain ⟨-, t', s', hputs', rfl⟩ := (sets_iff E env _ ls ls2).1 h3
  obtain ⟨y1, hy1, hV1, -⟩ := stored_public hE henv h.tree (by omega : 1 ≤ L) _ hids1 hputs [] (by simp; omega)
    ⟨_, List.mem_map.2 ⟨e, by simp, rfl⟩, List.nil_prefix⟩
  obtain ⟨y2, hy2, hV2, -⟩ := stored_public hE henv h.tree (by omega : 1 ≤ L) _ hids hputs' [] (by simp; omega)
    ⟨_, List.mem_map.2 ⟨e, by simp, rfl⟩, List.nil_prefix⟩
  have i1 : y1 = x1 := Option.some.inj ((load_fromBytes hy1).symm.trans hx1)
  have i2 : y2 = x2 := Option.some.inj ((load_fromBytes hy2).symm.trans hx2)
  subst i1 i2
  have hdr : ∀ l, drawAt L ls.s.tick (byPath ls.tree.id2Path (e :: l)) [] = ls.s.tick + (L - 1) := by
    intro l
    simp [drawAt, byPath, List.findIdx_cons]
  rw [List.cons_append, hdr] at hV2
  rw [hdr] at hV1
  rw [← List.cons_append, hb, offset_write F L hL α _ a haF q b] at hV2
  rw [hV1, hV2, ← add_smul]
  congr 1
  ring

end PoL.Pol

namespace PoL.Props
open Spec BP PP Verkle Pol

variable {G1 G2 GT : Type} [AddCommGroup G1] [Module Zr G1] [AddCommGroup G2] [Module Zr G2]
  [AddCommGroup GT] [Module Zr GT] [DecidableEq G1] [DecidableEq GT]

/-- C131: a proof that `Verify` accepts against one root is refused with an error against every other root, for every
identifier that has a path and whatever the parameters. -/
theorem C131_one_root (E : Curve G1 G2 GT) (lp : LiabilityProof G1) (pp pp' : PublicParams G1 G2 GT) (id id' : Str) (V W V' W' : G1)
    (id2path id2path' : Str → Option (List ℕ)) (h : lp.verify E pp id V W id2path = some true) (hne : V ≠ V' ∨ W ≠ W')
    (hid : (id2path' id').isSome) : lp.verify E pp' id' V' W' id2path' = some false := by
  obtain ⟨p, -, a⟩ := (verify_iff E lp pp id V W id2path).1 h
  obtain ⟨p', hp'⟩ := Option.isSome_iff_exists.1 hid
  unfold LiabilityProof.verify
  rw [hp', a.root_V, a.root_W]
  simp only [Option.bind_eq_bind, Option.bind_some, Option.pure_def]
  by_cases h1 : lp.W.length + 1 ≠ p'.length ∨ lp.digests.length ≠ p'.length
  · rw [if_pos h1]
  · rw [if_neg h1]
    by_cases h2 : V = V'
    · rw [if_neg (not_not.2 h2), if_pos (hne.resolve_left (not_not.2 h2))]
    · rw [if_pos h2]

/-- C131: once an amount is set to another one, no proof accepted before is accepted against the root that is then
stored, for any client; `Verify` returns an error.  What is missing for `Root`: it returns the stored root only when called
for the first time, see `C131_violated`. -/
theorem C131_out_of_date_partial {E : Curve G1 G2 GT} (hE : E.Lawful) (hg : E.genG1 ≠ 0) {env : Env} (henv : env.Lawful) {α : Zr}
    {F L : ℕ} {ls ls1 ls2 : LiabilitySet G1 G2 GT} (h : NewSet E α F L ls) (hist : List (Str × ℤ)) (hne : hist ≠ []) (other : Str)
    (b : ℤ) (hids : ValidIds ls.tree.id2Path F L (hist ++ [(other, b)])) (h1 : ls.sets E env hist = some ls1)
    (h2 : ls1.set E env other b = some ls2) (a : ℕ) (q : List ℕ) (ho : ls.tree.id2Path other = some (a :: q))
    (hα : α ^ (a + 1) + α ^ (F + 1) ≠ 0) (hb : intToZr b ≠ intToZr (latest (byPath ls.tree.id2Path hist) (a :: q))) :
    ∃ x1 x2 W1 W2, Vertex.fromBytes E (ls1.s.db []) = some x1 ∧ x1.W = some W1 ∧
      Vertex.fromBytes E (ls2.s.db []) = some x2 ∧ x2.W = some W2 ∧ x1.V ≠ x2.V ∧
      ∀ (lp : LiabilityProof G1) (id : Str), lp.verify E ls.pp id x1.V W1 ls.tree.id2Path = some true →
        ∀ id', (ls.tree.id2Path id').isSome → lp.verify E ls.pp id' x2.V W2 ls.tree.id2Path = some false := by
  have hL := h.pp.depth
  have h2' : ls1.sets E env [(other, b)] = some ls2 := by
    unfold LiabilitySet.sets
    simpa using h2
  have h3 : ls.sets E env (hist ++ [(other, b)]) = some ls2 := by rw [sets_append, h1]; exact h2'
  have hids1 : ValidIds ls.tree.id2Path F L hist := fun e he => hids e (by simp [he])
  have root : ∀ (hh : List (Str × ℤ)) (l : LiabilitySet G1 G2 GT), hh ≠ [] → ValidIds ls.tree.id2Path F L hh →
      ls.sets E env hh = some l → ∃ x W, Vertex.fromBytes E (l.s.db []) = some x ∧ x.W = some W := by
    intro hh l hn hv hs
    obtain ⟨-, t, s, hputs, rfl⟩ := (sets_iff E env hh ls l).1 hs
    obtain ⟨e, tl, rfl⟩ := List.exists_cons_of_ne_nil hn
    obtain ⟨y, hy, -, -, hW⟩ := stored_public hE henv h.tree (by omega : 1 ≤ L) _ hv hputs [] (by simp; omega)
      ⟨_, List.mem_map.2 ⟨e, by simp, rfl⟩, List.nil_prefix⟩
    exact ⟨y, _, load_fromBytes hy, (hW (by simp; omega)).1⟩
  obtain ⟨x1, W1, hx1, hW1⟩ := root hist ls1 hne hids1 h1
  obtain ⟨x2, W2, hx2, hW2⟩ := root _ ls2 (by simp) hids h3
  have hmv := root_moves hE henv h hist hne other b hids h1 h2' a q ho x1 x2 hx1 hx2
  have hV : x1.V ≠ x2.V := by
    intro hc
    rw [hmv, left_eq_add] at hc
    rcases smul_eq_zero.1 hc with hz | hz
    · rcases mul_eq_zero.1 hz with hz | hz
      · apply hb
        unfold intToZr at hz ⊢
        rw [Int.cast_sub] at hz
        exact sub_eq_zero.1 hz
      · exact hα hz
    · exact hg hz
  exact ⟨x1, x2, W1, W2, hx1, hW1, hx2, hW2, hV, fun lp id hv id' hid' =>
    C131_one_root E lp ls.pp ls.pp id id' x1.V W1 x2.V W2 _ _ hv (.inl hV) hid'⟩

/-- C131, for changes of any kind, between any two sets under the same parameters: a proof that is accepted against what
`Root` first returns for both shows that both hold the same sums below every vertex — or their stores exhibit a collision.
Missing: the amounts below a vertex over the leaves that is written below more than once (`C98_violated`). -/
theorem C131_two_roots_partial {E : Curve G1 G2 GT} (hE : E.Lawful) {env₁ env₂ : Env} (henv₁ : env₁.Lawful)
    (henv₂ : env₂.Lawful) {α : Zr} {F L : ℕ} {ls₁ ls₂ ls₁' ls₂' ls₁'' ls₂'' : LiabilitySet G1 G2 GT} (h₁ : NewSet E α F L ls₁)
    (h₂ : NewSet E α F L ls₂) (hist₁ hist₂ : List (Str × ℤ)) (hne₁ : hist₁ ≠ []) (hne₂ : hist₂ ≠ [])
    (hids₁ : ValidIds ls₁.tree.id2Path F L hist₁) (hids₂ : ValidIds ls₂.tree.id2Path F L hist₂)
    (hr₁ : ls₁.sets E env₁ hist₁ = some ls₁') (hr₂ : ls₂.sets E env₂ hist₂ = some ls₂')
    (ht₁ : totalAmount (byPath ls₁.tree.id2Path hist₁) < 2 ^ 63) (ht₂ : totalAmount (byPath ls₂.tree.id2Path hist₂) < 2 ^ 63)
    (V₁ W₁ V₂ W₂ : G1) (hroot₁ : ls₁'.root E = some (some (V₁, some W₁), ls₁'')) (hroot₂ : ls₂'.root E = some (some (V₂, some W₂), ls₂''))
    (lp : LiabilityProof G1) (id₁ id₂ : Str) (hv₁ : lp.verify E ls₁.pp id₁ V₁ W₁ ls₁.tree.id2Path = some true)
    (hv₂ : lp.verify E ls₂.pp id₂ V₂ W₂ ls₂.tree.id2Path = some true) :
    Broken E α F (byPath ls₁.tree.id2Path hist₁) (byPath ls₂.tree.id2Path hist₂) ls₁'.s.db ls₂'.s.db ∨
      (∀ q, q.length < L →
        (touched (byPath ls₁.tree.id2Path hist₁) q ↔ touched (byPath ls₂.tree.id2Path hist₂) q) ∧
        amountBelow (byPath ls₁.tree.id2Path hist₁) q = amountBelow (byPath ls₂.tree.id2Path hist₂) q) ∧
      ∀ p, p.length = L → writesBelow (byPath ls₁.tree.id2Path hist₁) p.dropLast ≤ 1 →
        writesBelow (byPath ls₂.tree.id2Path hist₂) p.dropLast ≤ 1 →
        latest (byPath ls₁.tree.id2Path hist₁) p = latest (byPath ls₂.tree.id2Path hist₂) p := by
  refine C98_root_determines_sums_partial hE henv₁ henv₂ h₁ h₂ hist₁ hist₂ hne₁ hne₂ hids₁ hids₂ hr₁ hr₂ ht₁ ht₂ ?_
  obtain ⟨p₂, hp₂, -⟩ := (verify_iff E lp ls₂.pp id₂ V₂ W₂ _).1 hv₂
  have heq : V₁ = V₂ ∧ W₁ = W₂ := by
    by_contra hc
    have := C131_one_root E lp ls₁.pp ls₂.pp id₁ id₂ V₁ W₁ V₂ W₂ _ ls₂.tree.id2Path hv₁ (not_and_or.1 hc)
      (by rw [hp₂]; rfl)
    rw [hv₂] at this
    simp at this
  rw [hroot₁, hroot₂, heq.1, heq.2]
  rfl

/-- C131 fails for what `Root` returns: once it has been called, a proof that is accepted against its result stays accepted
against the results of all later calls, whatever is written in between, so also when the client's own amount is another. -/
theorem C131_violated {E : Curve G1 G2 GT} (hE : E.Lawful) {env : Env} (henv : env.Lawful) {α : Zr} {F L : ℕ}
    {ls ls1 ls2 ls3 : LiabilitySet G1 G2 GT} (h : NewSet E α F L ls) (hist hist' : List (Str × ℤ)) (hne : hist ≠ [])
    (hids : ValidIds ls.tree.id2Path F L (hist ++ hist')) (h1 : ls.sets E env hist = some ls1)
    (V W : G1) (h2 : ls1.root E = some (some (V, some W), ls2)) (h3 : ls2.sets E env hist' = some ls3)
    (lp : LiabilityProof G1) (id : Str) (hid : id ∈ hist.map Prod.fst)
    (hinj : ∀ e ∈ hist ++ hist', ls.tree.id2Path e.1 = ls.tree.id2Path id → e.1 = id)
    (hv : lp.verify E ls.pp id V W ls.tree.id2Path = some true) :
    ∃ V' W' ls4, ls3.root E = some (some (V', some W'), ls4) ∧ lp.verify E ls.pp id V' W' ls.tree.id2Path = some true ∧
      ls3.get E env id = some (lastPut (hist ++ hist') id) := by
  obtain ⟨ls4, h4⟩ := C46_root_frozen hE henv h hist hist' hne hids h1 _ h2 h3
  refine ⟨V, W, ls4, h4, hv, ?_⟩
  have hids1 : ValidIds ls.tree.id2Path F L hist := fun e he => hids e (by simp [he])
  obtain ⟨e, he, rfl⟩ := List.mem_map.1 hid
  obtain ⟨p, hp, hpL, -⟩ := hids1 e he
  obtain ⟨x, -, hroot⟩ := C46_first_call_partial hE henv h hist hne hids1 h1
  rw [hroot, Option.some.injEq, Prod.mk.injEq] at h2
  obtain ⟨-, rfl⟩ := h2
  obtain ⟨hn3, t3, s3, hp3, rfl⟩ := (sets_iff E env hist' _ ls3).1 h3
  have h3' : ls1.sets E env hist' = some { ls1 with tree := t3, s := s3 } :=
    (sets_iff E env hist' ls1 _).2 ⟨hn3, t3, s3, hp3, rfl⟩
  have := C43_get_latest hE henv h (hist ++ hist') hids (ls' := { ls1 with tree := t3, s := s3 })
    (by rw [sets_append, h1]; exact h3') e.1 p hp hpL hinj
  exact this

/-- C131 fails the other way round, too: once `Root` has been called and an amount is set to another one, every liability proof
that is made afterwards, for any client, is refused against what `Root` returns. -/
theorem C131_violated_new_proofs {E : Curve G1 G2 GT} (hE : E.Lawful) (hg : E.genG1 ≠ 0) {env : Env} (henv : env.Lawful) {α : Zr}
    {F L : ℕ} {ls ls1 ls2 ls3 : LiabilitySet G1 G2 GT} (h : NewSet E α F L ls) (hist : List (Str × ℤ)) (hne : hist ≠ []) (other : Str)
    (b : ℤ) (hids : ValidIds ls.tree.id2Path F L (hist ++ [(other, b)])) (h1 : ls.sets E env hist = some ls1)
    (r : Option (G1 × Option G1)) (h2 : ls1.root E = some (r, ls2)) (h3 : ls2.set E env other b = some ls3) (a : ℕ) (q : List ℕ)
    (ho : ls.tree.id2Path other = some (a :: q)) (hα : α ^ (a + 1) + α ^ (F + 1) ≠ 0)
    (hb : intToZr b ≠ intToZr (latest (byPath ls.tree.id2Path hist) (a :: q))) :
    ∃ V W ls4, ls3.root E = some (some (V, W), ls4) ∧ ∀ id ∈ (hist ++ [(other, b)]).map Prod.fst, ∀ rnd m lp,
      ls3.proveLiability E env rnd id = some (some (m, lp)) →
        ∀ W', lp.verify E ls.pp id V W' ls.tree.id2Path = some false := by
  have hL := h.pp.depth
  have hids1 : ValidIds ls.tree.id2Path F L hist := fun e he => hids e (by simp [he])
  have h3' : ls2.sets E env [(other, b)] = some ls3 := by
    unfold LiabilitySet.sets
    simpa using h3
  obtain ⟨ls4, h4⟩ := C46_root_frozen hE henv h hist [(other, b)] hne hids h1 r h2 h3'
  obtain ⟨x, hx, hroot⟩ := C46_first_call_partial hE henv h hist hne hids1 h1
  rw [hroot, Option.some.injEq, Prod.mk.injEq] at h2
  obtain ⟨rfl, rfl⟩ := h2
  obtain ⟨hn3, t3, s3, hp3, rfl⟩ := (sets_iff E env _ _ ls3).1 h3'
  have h5 : ls1.sets E env [(other, b)] = some { ls1 with tree := t3, s := s3 } :=
    (sets_iff E env _ ls1 _).2 ⟨hn3, t3, s3, hp3, rfl⟩
  have h5' : ls1.set E env other b = some { ls1 with tree := t3, s := s3 } := by
    unfold LiabilitySet.sets at h5
    simpa using h5
  have hall : ls.sets E env (hist ++ [(other, b)]) = some { ls1 with tree := t3, s := s3 } := by rw [sets_append, h1]; exact h5
  obtain ⟨x1, x2, -, -, e1, -, e3, -, hV, -⟩ := C131_out_of_date_partial hE hg henv h hist hne other b hids h1 h5' a q ho hα hb
  rw [hx, Option.some.injEq] at e1
  subst e1
  refine ⟨_, _, ls4, h4, fun id hmem rnd m lp hpr W' => ?_⟩
  obtain ⟨e, he, rfl⟩ := List.mem_map.1 hmem
  obtain ⟨p, hp, hpL, -⟩ := hids e he
  obtain ⟨-, t, s, hputs, hts⟩ := (sets_iff E env _ ls _).1 hall
  have ht : t3 = t := congrArg LiabilitySet.tree hts
  have hs : s3 = s := congrArg LiabilitySet.s hts
  subst ht hs
  obtain ⟨t1, s1, hputs1, ht1, -⟩ := puts_good hE henv α F h.tree.bound.le ls.tree h.tree.pp h.tree.fanOut h.tree.root L
    (by omega) _ ls.s hids
  rw [hputs, Option.some.injEq, Prod.mk.injEq] at hputs1
  obtain ⟨rfl, rfl⟩ := hputs1
  have hmp : p ∈ (byPath ls.tree.id2Path (hist ++ [(other, b)])).map Prod.fst :=
    List.mem_map.2 ⟨(p, e.2), List.mem_map.2 ⟨e, he, by simp [hp]⟩, rfl⟩
  obtain ⟨path, n, vs, g1, g2, g3⟩ := prove_commitments hpr
  have g1' : ls.tree.id2Path e.1 = some path := by rw [ht1] at g1; exact g1
  rw [hp, Option.some.injEq] at g1'
  subst g1'
  obtain ⟨vs', hget, -, hvs⟩ := get_onPath hE henv h.tree (by omega) _ hids hputs e.1 p hp hpL hmp
  have g2' : t3.get E env e.1 s3.db = some (some (n, vs)) := g2
  rw [hget, Option.some.injEq, Option.some.injEq, Prod.mk.injEq] at g2'
  obtain ⟨-, rfl⟩ := g2'
  obtain ⟨y, hy, hfb, -⟩ := hvs 0 (by omega)
  have hyx : y = x2 := by
    have : Vertex.fromBytes E (s3.db []) = some y := by simpa [keyOf] using hfb
    exact Option.some.inj (this.symm.trans e3)
  subst hyx
  have hV0 : lp.V[0]? = some y.V := by rw [g3 0 (by omega), hy]; rfl
  unfold LiabilityProof.verify
  rw [hp, hV0]
  simp only [Option.bind_eq_bind, Option.bind_some, Option.pure_def]
  by_cases hl : lp.W.length + 1 ≠ p.length ∨ lp.digests.length ≠ p.length
  · rw [if_pos hl]
  · rw [if_neg hl, if_pos (Ne.symm hV)]

/-! ## The hypotheses can be met -/

/-- A proof of the amount 7, accepted against the result of `Root`; then the amount is set to 9. -/
theorem toy_stale : ∃ (ls ls1 ls2 ls3 ls3' : LiabilitySet Zr Zr Zr) (lp : LiabilityProof Zr) (x : Vertex Zr) (W : Zr),
    NewSet toyCurve 2 3 3 ls ∧ ls.tree = toyTree ∧ ValidIds ls.tree.id2Path 3 3 (toyHist ++ [(['2', '2', '1'], 9)]) ∧
    ls.sets toyCurve toyEnv toyHist = some ls1 ∧ ls1.root toyCurve = some (some (x.V, some W), ls2) ∧
    Vertex.fromBytes toyCurve (ls1.s.db []) = some x ∧ x.W = some W ∧
    ls2.sets toyCurve toyEnv [(['2', '2', '1'], 9)] = some ls3 ∧ ls1.set toyCurve toyEnv ['2', '2', '1'] 9 = some ls3' ∧
    lp.total.sum = 7 ∧ lp.verify toyCurve ls.pp ['2', '2', '1'] x.V W ls.tree.id2Path = some true := by
  obtain ⟨ls, h, ht⟩ := toy_set
  have hids : ValidIds ls.tree.id2Path 3 3 toyHist := by rw [ht]; exact toyHist_valid
  have hids2 : ValidIds ls.tree.id2Path 3 3 (toyHist ++ [(['2', '2', '1'], 9)]) := by
    intro e he
    rcases List.mem_append.1 he with he | he
    · exact hids e he
    · rw [List.mem_singleton.1 he, ht]
      exact ⟨[2, 2, 1], rfl, rfl, by decide⟩
  have h42 : totalAmount (byPath ls.tree.id2Path toyHist) = 42 := by rw [ht]; decide
  have h7 : latest (byPath ls.tree.id2Path toyHist) [2, 2, 1] = 7 := by rw [ht]; decide
  obtain ⟨ls3', hs3⟩ := C43_sets_return toyCurve_lawful toyEnv_lawful h _ hids2 (by decide)
  rw [sets_append] at hs3
  obtain ⟨ls1, hs, hs3⟩ := obind_elim hs3
  obtain ⟨lp, x, W, -, h2, hx, hW, h4⟩ := C47_liability_proof_verifies_partial toyCurve_lawful toyEnv_lawful h toyHist hids hs
    (by rw [h42]; norm_num) ['2', '2', '1'] [2, 2, 1] (by rw [ht]; rfl) (by rw [ht]; decide) (by rw [ht]; decide) toyRand
    toyRand_sized (toy_challenges _ _ _)
  rw [h7] at h2
  obtain ⟨y, hy, hroot⟩ := C46_first_call_partial toyCurve_lawful toyEnv_lawful h toyHist (by decide) hids hs
  rw [hx, Option.some.injEq] at hy
  subst hy
  rw [hW] at hroot
  obtain ⟨hn3, t3, s3, hp3, rfl⟩ := (sets_iff toyCurve toyEnv _ ls1 ls3').1 hs3
  refine ⟨ls, ls1, _, _, { ls1 with tree := t3, s := s3 }, lp, x, W, h, ht, hids2, hs, hroot, hx, hW,
    (sets_iff toyCurve toyEnv _ { ls1 with memRoot := ls1.s.db [] } _).2 ⟨hn3, t3, s3, hp3, rfl⟩, ?_, h2, h4⟩
  unfold LiabilitySet.sets at hs3
  simpa using hs3

/-- With `C131_violated`: after the amount has been set to 9, the proof of 7 is accepted against the result of `Root`. -/
example : ∃ (ls3 ls4 : LiabilitySet Zr Zr Zr) (pp : PublicParams Zr Zr Zr) (lp : LiabilityProof Zr) (V W : Zr), lp.total.sum = 7 ∧
    ls3.get toyCurve toyEnv ['2', '2', '1'] = some (some 9) ∧ ls3.root toyCurve = some (some (V, some W), ls4) ∧
    lp.verify toyCurve pp ['2', '2', '1'] V W toyTree.id2Path = some true := by
  obtain ⟨ls, ls1, ls2, ls3, -, lp, x, W, h, ht, hids, h1, h2, -, -, h3, -, h7, hv⟩ := toy_stale
  obtain ⟨V', W', ls4, e1, e2, e3⟩ := C131_violated toyCurve_lawful toyEnv_lawful h toyHist [(['2', '2', '1'], 9)] (by decide) hids h1
    x.V W h2 h3 lp ['2', '2', '1'] (by decide) (by rw [ht]; decide) hv
  rw [ht] at e2
  exact ⟨ls3, ls4, ls.pp, lp, V', W', h7, e3, e1, e2⟩

/-- With `C131_out_of_date_partial`: against the root that is stored then, it is refused. -/
example : ∃ (db : Db) (x : Vertex Zr) (pp : PublicParams Zr Zr Zr) (lp : LiabilityProof Zr) (V₁ W₁ W : Zr),
    lp.verify toyCurve pp ['2', '2', '1'] V₁ W₁ toyTree.id2Path = some true ∧
    Vertex.fromBytes toyCurve (db []) = some x ∧ x.W = some W ∧
    lp.verify toyCurve pp ['2', '2', '1'] x.V W toyTree.id2Path = some false := by
  obtain ⟨ls, ls1, -, -, ls3', lp, x, W, h, ht, hids, h1, -, hx, hW, -, h3, -, hv⟩ := toy_stale
  have h7 : latest (byPath ls.tree.id2Path toyHist) [2, 2, 1] = 7 := by rw [ht]; decide
  obtain ⟨x1, x2, W1, W2, e1, e2, e3, e4, -, e6⟩ := C131_out_of_date_partial toyCurve_lawful (by decide +kernel) toyEnv_lawful h toyHist
    (by decide) ['2', '2', '1'] 9 hids h1 h3 2 [2, 1] (by rw [ht]; rfl) (by decide +kernel) (by rw [h7]; decide +kernel)
  rw [hx, Option.some.injEq] at e1
  subst e1
  rw [hW, Option.some.injEq] at e2
  subst e2
  have := e6 lp _ hv ['2', '2', '1'] (by rw [ht]; rfl)
  rw [ht] at this hv
  exact ⟨_, x2, ls.pp, lp, x.V, W, W2, hv, e3, e4, this⟩

/-- With `C131_violated_new_proofs`: the proof for one client, made after another client's amount has been set to 31, is refused
against the result of `Root`, but accepted against the root that is stored. -/
example : ∃ (ls3 ls4 : LiabilitySet Zr Zr Zr) (pp : PublicParams Zr Zr Zr) (lp : LiabilityProof Zr) (V : Zr) (W : Option Zr)
    (x : Vertex Zr) (W' : Zr), ls3.root toyCurve = some (some (V, W), ls4) ∧
    ls3.proveLiability toyCurve toyEnv toyRand ['2', '2', '1'] = some (some (7, lp)) ∧
    (∀ w, lp.verify toyCurve pp ['2', '2', '1'] V w toyTree.id2Path = some false) ∧
    Vertex.fromBytes toyCurve (ls3.s.db []) = some x ∧ lp.verify toyCurve pp ['2', '2', '1'] x.V W' toyTree.id2Path = some true := by
  obtain ⟨ls, h, ht⟩ := toy_set
  have hids : ValidIds ls.tree.id2Path 3 3 toyHist := by rw [ht]; exact toyHist_valid
  have hids2 : ValidIds ls.tree.id2Path 3 3 (toyHist ++ [(['0', '1', '2'], 31)]) := by
    intro e he
    rcases List.mem_append.1 he with he | he
    · exact hids e he
    · rw [List.mem_singleton.1 he, ht]
      exact ⟨[0, 1, 2], rfl, rfl, by decide⟩
  have h43 : totalAmount (byPath ls.tree.id2Path (toyHist ++ [(['0', '1', '2'], 31)])) = 43 := by rw [ht]; decide
  have h7 : latest (byPath ls.tree.id2Path (toyHist ++ [(['0', '1', '2'], 31)])) [2, 2, 1] = 7 := by rw [ht]; decide
  have h30 : latest (byPath ls.tree.id2Path toyHist) [0, 1, 2] = 30 := by rw [ht]; decide
  obtain ⟨ls3, hs⟩ := C43_sets_return toyCurve_lawful toyEnv_lawful h _ hids2 (by decide)
  obtain ⟨lp, x, W', hpr, -, hx, -, hv⟩ := C47_liability_proof_verifies_partial toyCurve_lawful toyEnv_lawful h _ hids2 hs
    (by rw [h43]; norm_num) ['2', '2', '1'] [2, 2, 1] (by rw [ht]; rfl) (by rw [ht]; decide) (by rw [ht]; decide) toyRand
    toyRand_sized (toy_challenges _ _ _)
  rw [h7] at hpr
  rw [sets_append] at hs
  obtain ⟨ls1, hs1, hs3⟩ := obind_elim hs
  obtain ⟨y, -, hroot⟩ := C46_first_call_partial toyCurve_lawful toyEnv_lawful h toyHist (by decide) hids hs1
  obtain ⟨hn3, t3, s3, hp3, rfl⟩ := (sets_iff toyCurve toyEnv _ ls1 ls3).1 hs3
  have h3 : ({ ls1 with memRoot := ls1.s.db [] } : LiabilitySet Zr Zr Zr).sets toyCurve toyEnv [(['0', '1', '2'], 31)]
      = some { ls1 with memRoot := ls1.s.db [], tree := t3, s := s3 } :=
    (sets_iff toyCurve toyEnv _ _ _).2 ⟨hn3, t3, s3, hp3, rfl⟩
  have h3' : ({ ls1 with memRoot := ls1.s.db [] } : LiabilitySet Zr Zr Zr).set toyCurve toyEnv ['0', '1', '2'] 31
      = some { ls1 with memRoot := ls1.s.db [], tree := t3, s := s3 } := by
    unfold LiabilitySet.sets at h3
    simpa using h3
  obtain ⟨V, W, ls4, e1, e2⟩ := C131_violated_new_proofs toyCurve_lawful (by decide +kernel) toyEnv_lawful h toyHist (by decide)
    ['0', '1', '2'] 31 hids2 hs1 _ hroot h3' 0 [1, 2] (by rw [ht]; rfl) (by decide +kernel) (by rw [h30]; decide +kernel)
  have e3 := e2 ['2', '2', '1'] (by decide) toyRand 7 lp hpr
  rw [ht] at e3 hv
  exact ⟨_, ls4, ls.pp, lp, V, W, x, W', e1, hpr, e3, hx, hv⟩

end PoL.Props
