import Verif.Proofs.PolPrivacy
import Verif.Proofs.TreePrivacy
import Verif.Props.Pol
import Verif.Spec.Timeline

/-! What the clients of a liability set see, as a function of the commitments of the tree. -/

set_option linter.unusedSectionVars false

namespace PoL.Pol
open Spec BP PP Verkle

/-- Pairs of random values, where the second part is matched for each first part. -/
theorem pair_equiv {A B : Type} (σ : A ≃ A) (P P' : A → B → Prop) (h : ∀ a, Nonempty ({b // P a b} ≃ {b // P' (σ a) b})) :
    Nonempty ({r : A × B // P r.1 r.2} ≃ {r : A × B // P' r.1 r.2}) := by
  have e := Equiv.sigmaCongr σ (β₁ := fun a => {b // P a b}) (β₂ := fun a => {b // P' a b}) fun a => (h a).some
  exact ⟨((Equiv.subtypeProdEquivSigmaSubtype P).trans e).trans (Equiv.subtypeProdEquivSigmaSubtype P').symm⟩

theorem pi_equiv {I B : Type} (R R' : I → B → Prop) (h : ∀ i, Nonempty ({b // R i b} ≃ {b // R' i b})) :
    Nonempty ({f : I → B // ∀ i, R i (f i)} ≃ {f : I → B // ∀ i, R' i (f i)}) :=
  ⟨(Equiv.subtypePiEquivPi.trans (Equiv.piCongrRight fun i => (h i).some)).trans Equiv.subtypePiEquivPi.symm⟩

theorem finite_blinding (t0 n : ℕ) : Finite {ρ : ℕ → Zr // Blinding t0 n ρ} := by
  refine Finite.of_injective (fun ρ => (fun i : Fin n => ρ.1 (t0 + i))) ?_
  intro a b hab
  apply Subtype.ext
  funext k
  by_cases hk : k < t0 ∨ t0 + n ≤ k
  · rw [a.2 k hk, b.2 k hk]
  · have := congrFun hab ⟨k - t0, by omega⟩
    simpa [show t0 + (k - t0) = k by omega] using this

variable {G1 G2 GT : Type} [AddCommGroup G1] [Module Zr G1] [AddCommGroup G2] [Module Zr G2]
  [AddCommGroup GT] [Module Zr GT] [DecidableEq G1] [DecidableEq GT]

/-- A run that writes a history, with the vertices it stores. -/
structure Written (E : Curve G1 G2 GT) (env : Env) (α : Zr) (F L : ℕ) (ls : LiabilitySet G1 G2 GT) (hist : List (Str × ℤ))
    (ls2 : LiabilitySet G1 G2 GT) (fx : List ℕ → Verkle.Vertex G1) : Prop where
  PP : ls2.tree.PP = newPublicParams E α (F + 2)
  fanOut : ls2.tree.fanOut = F
  pp : ls2.pp = ls.pp
  id2Path : ls2.tree.id2Path = ls.tree.id2Path
  V : ∀ q, q.length < L → touched (byPath ls.tree.id2Path hist) q →
    (fx q).V = (offset F L α (byPath ls.tree.id2Path hist) q
        + env.rand (drawAt L ls.s.tick (byPath ls.tree.id2Path hist) q) * α ^ (F + 2)) • E.genG1
  load : ∀ q, q.length < L → touched (byPath ls.tree.id2Path hist) q → load E ls2.s.db (keyOf q) = some (fx q)
  leaf : ∀ q, touched (byPath ls.tree.id2Path hist) q → q.length + 1 = L → (fx q).W = none ∧ (fx q).digests = .empty
  inner : ∀ q, touched (byPath ls.tree.id2Path hist) q → q.length + 1 < L →
    (fx q).W = some (com E α (digVec F (digestsAt E ls2.s.db (byPath ls.tree.id2Path hist) q))) ∧
      (fx q).digests = mapBelow F (digestsAt E ls2.s.db (byPath ls.tree.id2Path hist) q)
  get : ∀ id p, ls.tree.id2Path id = some p → p.length = L → p ∈ (byPath ls.tree.id2Path hist).map Prod.fst →
    ls2.tree.get E env id ls2.s.db
      = some (some (latest (byPath ls.tree.id2Path hist) p, (List.range L).map fun i => fx (p.take i))) ∧
    ∀ i < L, OnPath E α F L (byPath ls.tree.id2Path hist) p ((List.range L).map fun i => fx (p.take i)) i (fx (p.take i))

/-- The proof of the total for a commitment. -/
def totalFor (E : Curve G1 G2 GT) (α : Zr) (F : ℕ) (V : G1) (T : ℤ) : TotalProof G1 :=
  ⟨α ^ 2 • V - (intToZr T * α ^ (F + 3)) • E.genG1, T⟩

theorem publish_eq {E : Curve G1 G2 GT} (hE : E.Lawful) {env : Env} (henv : env.Lawful) {α : Zr} {F L : ℕ}
    {ls : LiabilitySet G1 G2 GT} (h : NewSet E α F L ls) (hist : List (Str × ℤ)) (hne : hist ≠ [])
    (hids : ValidIds ls.tree.id2Path F L hist) (hn : ∀ e ∈ hist, 0 ≤ e.2)
    (htot : totalAmount (byPath ls.tree.id2Path hist) < 2 ^ 63) {k : ℕ} (ids : Fin k → Str) (withTotal : Bool)
    {t : Verkle.Tree G1 G2 GT} {s : State} (hputs : ls.tree.puts E env hist ls.s = some (t, s)) :
    ∃ fx, (∀ m, Written E env α F L ls hist { ls with tree := t, s := s, memRoot := m } fx) ∧
      Verkle.Vertex.fromBytes E (s.db []) = some (fx []) ∧
      ∀ m x0, Verkle.Vertex.fromBytes E (if m.length ≠ 0 then m else s.db []) = some x0 → ∀ rnds,
        publish E env ids withTotal rnds { ls with tree := t, s := s, memRoot := m } = some ⟨some (x0.V, x0.W),
          (if withTotal then some (totalFor E α F (fx []).V (totalAmount (byPath ls.tree.id2Path hist))) else none),
          fun i => LiabilitySet.proveLiability E env
            { ls with tree := t, s := s, memRoot := if m.length ≠ 0 then m else s.db [] } (rnds i) (ids i)⟩ := by
  have hL := h.pp.depth
  have ht : t = { ls.tree with root := t.root } := by
    obtain ⟨t1, s1, h1, ht, -⟩ := puts_good hE henv α F h.tree.bound.le ls.tree h.tree.pp h.tree.fanOut h.tree.root L
      (by omega) hist ls.s hids
    rw [hputs, Option.some.injEq, Prod.mk.injEq] at h1
    obtain ⟨rfl, rfl⟩ := h1
    exact ht
  have hpub := stored_public hE henv h.tree (by omega) hist hids hputs
  have : Nonempty (Verkle.Vertex G1) := ⟨⟨0, fun _ => none, fun _ => none, 0, 0, none⟩⟩
  choose! fx p1 p2 p3 p4 using hpub
  obtain ⟨v, x, hv, hd, hx⟩ := root_data hE henv h.tree (by omega) hist hne hids hputs
  have htou0 : touched (byPath ls.tree.id2Path hist) [] := by
    obtain ⟨e, l, rfl⟩ := List.exists_cons_of_ne_nil hne
    exact ⟨_, List.mem_cons_self, List.nil_prefix⟩
  have hx := load_fromBytes (p1 [] (show 0 < L by omega) htou0)
  rw [show keyOf [] = [] from rfl] at hx
  refine ⟨fx, ?_, hx, ?_⟩
  · intro m
    refine ⟨by rw [ht]; exact h.tree.pp, by rw [ht]; exact h.tree.fanOut, rfl, by rw [ht], p2, p1,
      fun q hq hl => p3 q (by omega) hq hl, fun q hq hl => p4 q (by omega) hq hl, ?_⟩
    intro id p hp hpL hw
    obtain ⟨vs, hget, hvl, hvs⟩ := get_onPath hE henv h.tree (by omega) hist hids hputs id p hp hpL hw
    have htp : ∀ i, touched (byPath ls.tree.id2Path hist) (p.take i) := by
      intro i
      obtain ⟨e, he, rfl⟩ := List.mem_map.1 hw
      exact ⟨e, he, List.take_prefix i e.1⟩
    have hvse : vs = (List.range L).map fun i => fx (p.take i) := by
      apply List.ext_getElem? 
      intro i
      by_cases hi : i < L
      · obtain ⟨x, hx, hf, -⟩ := hvs i hi
        rw [hx, List.getElem?_map, List.getElem?_range hi, Option.map_some, Option.some.injEq]
        have := load_fromBytes (p1 (p.take i) (by rw [List.length_take]; omega) (htp i))
        exact Option.some.inj (hf.symm.trans this)
      · rw [List.getElem?_eq_none (by omega), List.getElem?_eq_none (by simpa using hi)]
    rw [hvse] at hget hvs
    refine ⟨hget, fun i hi => ?_⟩
    obtain ⟨x, hx, -, hon⟩ := hvs i hi
    rw [List.getElem?_map, List.getElem?_range hi, Option.map_some, Option.some.injEq] at hx
    rw [hx]
    exact hon
  · intro m x0 hx0 rnds
    have hroot := root_eq (E := E) (ls := { ls with tree := t, s := s, memRoot := m }) hv hd x0 hx0
    unfold publish
    rw [hroot, Option.bind_some]
    dsimp only
    generalize (if m.length ≠ 0 then m else s.db []) = m'
    cases withTotal with
    | false => rfl
    | true =>
      have htp : LiabilitySet.proveTot E { ls with tree := t, s := s, memRoot := m' }
          = some (totalFor E α F (fx []).V (totalAmount (byPath ls.tree.id2Path hist))) := by
        obtain ⟨y, hy, hval, hV, -⟩ := root_onPath hE henv h.tree hL hist hne hids hputs
        obtain rfl : fx [] = y := Option.some.inj (hx.symm.trans hy)
        have hN : ls.pp.PPPP.N = F + 2 := by rw [h.pp.PPPP]; rfl
        have h0 : 0 ≤ totalAmount (byPath ls.tree.id2Path hist) :=
          Finset.sum_nonneg fun p _ => latest_nonneg (byPath_nonneg hn) p
        have hl : ((fx []).valuesVec (F + 1) ++ [(fx []).blindingFactor]).length = F + 2 := by simp [valuesVec_length]
        have hmi : ((fx []).valuesVec (F + 1) ++ [(fx []).blindingFactor]).getD F 0
            = intToZr (totalAmount (byPath ls.tree.id2Path hist)) := by
          rw [List.getD_eq_getElem?_getD, List.getElem?_append_left (by rw [valuesVec_length]; omega), hval,
            List.getElem?_append_right (by simp)]
          simp
        unfold LiabilitySet.proveTot
        refine obind_step hy ?_
        have : LiabilitySet.openSumFromVertex { ls with tree := t, s := s, memRoot := m' } (fx [])
            = some (intToZr (totalAmount (byPath ls.tree.id2Path hist)),
              (totalFor E α F (fx []).V (totalAmount (byPath ls.tree.id2Path hist))).liabilityProof) := by
          unfold LiabilitySet.openSumFromVertex
          dsimp only
          rw [hN, if_neg (by omega), show F + 2 - 1 = F + 1 from rfl, hl, if_neg (by omega), h.pp.PPPP,
            show F + 2 - 2 = F from rfl, openAt_eq E α (F + 2) _ hl (by omega) F (by omega), hmi]
          congr 2
          unfold totalFor
          dsimp only
          have e1 := openExpo_add α (F + 2) F _ hl (by omega)
          rw [hmi, show F + 2 - F = 2 by omega] at e1
          conv_rhs => rw [hV]
          unfold com
          rw [smul_smul, ← sub_smul]
          congr 1
          exact eq_sub_of_add_eq e1
        refine obind_step this ?_
        exact obind_step (zrInt_intToZr h0 htot) rfl
      simp only [if_true]
      rw [htp]
      rfl

theorem observe_eq {E : Curve G1 G2 GT} (hE : E.Lawful) {env : Env} (henv : env.Lawful) {α : Zr} {F L : ℕ}
    {ls : LiabilitySet G1 G2 GT} (h : NewSet E α F L ls) (hist : List (Str × ℤ)) (hne : hist ≠ [])
    (hids : ValidIds ls.tree.id2Path F L hist) (hn : ∀ e ∈ hist, 0 ≤ e.2)
    (htot : totalAmount (byPath ls.tree.id2Path hist) < 2 ^ 63) {k : ℕ} (ids : Fin k → Str) (withTotal : Bool)
    (ρ : ℕ → Zr) : ∃ ls2 fx, Written E { env with rand := ρ } α F L ls hist ls2 fx ∧ ∀ rnds,
      observe E env ls hist ids withTotal (ρ, rnds) = some ⟨some ((fx []).V, (fx []).W),
        (if withTotal then some (totalFor E α F (fx []).V (totalAmount (byPath ls.tree.id2Path hist))) else none),
        fun i => ls2.proveLiability E { env with rand := ρ } (rnds i) (ids i)⟩ := by
  have hL := h.pp.depth
  have henv' : Env.Lawful { env with rand := ρ } := ⟨henv.1, henv.2, henv.3, henv.4⟩
  obtain ⟨t, s, hputs, -⟩ := puts_good hE henv' α F h.tree.bound.le ls.tree h.tree.pp h.tree.fanOut h.tree.root L
    (by omega) hist ls.s hids
  have hr : ls.sets E { env with rand := ρ } hist = some { ls with tree := t, s := s } :=
    (sets_iff E _ hist ls _).2 ⟨hn, t, s, hputs, rfl⟩
  obtain ⟨fx, hw, hx, hp⟩ := publish_eq hE henv' h hist hne hids hn htot ids withTotal hputs
  refine ⟨_, fx, hw (if ls.memRoot.length ≠ 0 then ls.memRoot else s.db []), fun rnds => ?_⟩
  rw [show observe E env ls hist ids withTotal (ρ, rnds) = (ls.sets E { env with rand := ρ } hist).bind
    (publish E { env with rand := ρ } ids withTotal rnds) from rfl, hr, Option.bind_some]
  exact hp ls.memRoot (fx []) (by rw [if_neg (by rw [h.memRoot]; simp)]; exact hx) rnds

open Classical in
/-- What is added to the scalars drawn to make up for other amounts. -/
noncomputable def shift (F L t0 : ℕ) (α : Zr) (h h' : List (List ℕ × ℤ)) (k : ℕ) : Zr :=
  if hk : ∃ q : List ℕ, q.length < L ∧ touched h q ∧ drawAt L t0 h q = k then
    (offset F L α h hk.choose - offset F L α h' hk.choose) / α ^ (F + 2) else 0

theorem shift_at {F L t0 : ℕ} {α : Zr} {h h' : List (List ℕ × ℤ)} {q : List ℕ} (hq : q.length < L) (ht : touched h q) :
    shift F L t0 α h h' (drawAt L t0 h q) = (offset F L α h q - offset F L α h' q) / α ^ (F + 2) := by
  have hk : ∃ r : List ℕ, r.length < L ∧ touched h r ∧ drawAt L t0 h r = drawAt L t0 h q := ⟨q, hq, ht, rfl⟩
  unfold shift
  rw [dif_pos hk]
  have e : hk.choose = q := drawAt_inj hk.choose_spec.2.1 ht hk.choose_spec.1 hq hk.choose_spec.2.2
  rw [e]

theorem shift_out {F L t0 : ℕ} {α : Zr} {h h' : List (List ℕ × ℤ)} {k : ℕ} (hk : k < t0 ∨ t0 + L * h.length ≤ k) :
    shift F L t0 α h h' k = 0 := by
  unfold shift
  rw [dif_neg]
  rintro ⟨q, hq, ht, rfl⟩
  have := drawAt_bounds (t0 := t0) ht hq
  omega

/-- Two states in which all commitments `V` agree: the published values agree, and the liability proofs are equally likely. -/
theorem stage_match {E : Curve G1 G2 GT} (hE : E.Lawful) {env env' : Env} {α : Zr}
    (hα : α ≠ 0) (hg : E.genG1 ≠ 0) (hcyc : PrimeOrder G1) {F L : ℕ} {ls : LiabilitySet G1 G2 GT} (h : NewSet E α F L ls)
    (hist hist' : List (Str × ℤ))
    (hsame : hist.map Prod.fst = hist'.map Prod.fst) (hids : ValidIds ls.tree.id2Path F L hist)
    (hn : ∀ e ∈ hist, 0 ≤ e.2) (hn' : ∀ e ∈ hist', 0 ≤ e.2)
    (htot : totalAmount (byPath ls.tree.id2Path hist) < 2 ^ 63)
    (htot' : totalAmount (byPath ls.tree.id2Path hist') < 2 ^ 63) {la lb : LiabilitySet G1 G2 GT} {fx fx' : List ℕ → Verkle.Vertex G1}
    (wa : Written E env α F L ls hist la fx) (wb : Written E env' α F L ls hist' lb fx')
    (hV : ∀ q, q.length < L → touched (byPath ls.tree.id2Path hist) q → (fx q).V = (fx' q).V) :
    (∀ q, q.length < L → touched (byPath ls.tree.id2Path hist) q → (fx q).W = (fx' q).W ∧ (fx q).digests = (fx' q).digests) ∧
    (ls.pp.RPPP.H ≠ 0 → ls.pp.POEPP.F ≠ 0 → ∀ id p, ls.tree.id2Path id = some p → id ∈ hist.map Prod.fst →
      latest (byPath ls.tree.id2Path hist) p = latest (byPath ls.tree.id2Path hist') p →
      writesBelow (byPath ls.tree.id2Path hist) p.dropLast = 1 → ∀ m lp, MasksNonzero E ls.pp p lp →
      EquallyLikely (Drawn F L) (fun rnd => la.proveLiability E env rnd id) (fun rnd => lb.proveLiability E env' rnd id)
        (some (m, lp))) := by
  have hL := h.pp.depth
  have hids' : ValidIds ls.tree.id2Path F L hist' := by
    intro e he
    have : e.1 ∈ hist.map Prod.fst := by rw [hsame]; exact List.mem_map.2 ⟨e, he, rfl⟩
    obtain ⟨e', he', h1⟩ := List.mem_map.1 this
    rw [← h1]
    exact hids e' he'
  set hh := byPath ls.tree.id2Path hist with hhh
  set hh' := byPath ls.tree.id2Path hist' with hhh'
  have hsp : hh.map Prod.fst = hh'.map Prod.fst := by
    have : ∀ l : List (Str × ℤ), (byPath ls.tree.id2Path l).map Prod.fst
        = (l.map Prod.fst).map fun i => (ls.tree.id2Path i).getD [] := by
      intro l; simp [byPath]
    rw [hhh, hhh', this, this, hsame]
  have htc := touched_congr hsp
  have hwc : ∀ q, writesBelow hh q = writesBelow hh' q := by
    intro q
    have : ∀ l : List (List ℕ × ℤ), writesBelow l q = (l.map Prod.fst).countP fun p => decide (q <+: p) := by
      intro l
      unfold writesBelow
      rw [List.countP_map]
      rfl
    rw [this, this, hsp]
  have hpub : ∀ q, q.length < L → touched hh q → (fx q).W = (fx' q).W ∧ (fx q).digests = (fx' q).digests := by
    intro q hq ht
    exact public_eq (h := hh) (h' := hh') htc fx fx' wa.load (fun q hq ht => wb.load q hq ((htc q).1 ht)) wa.leaf
      (fun q ht hq => wb.leaf q ((htc q).1 ht) hq) wa.inner (fun q ht hq => wb.inner q ((htc q).1 ht) hq) hV (L - 1 - q.length)
      q (by omega) ht
  refine ⟨hpub, ?_⟩
  intro hH hPF id p hp hmem hl hw1 m lp hm
  have hpath : ∃ p, ls.tree.id2Path id = some p ∧ p.length = L ∧ (∀ x ∈ p, x < F) ∧ p ∈ hh.map Prod.fst := by
    obtain ⟨e, he, h1⟩ := List.mem_map.1 hmem
    obtain ⟨p, hp, hpL, hlt⟩ := hids e he
    refine ⟨p, by rw [← h1, hp], hpL, hlt, ?_⟩
    rw [hhh]
    exact List.mem_map.2 ⟨(p, e.2), List.mem_map.2 ⟨e, he, by simp [hp]⟩, rfl⟩
  obtain ⟨p', hp', hpL, hlt, hmemp⟩ := hpath
  rw [hp, Option.some.injEq] at hp'
  subst hp'
  have htp : ∀ i, touched hh (p.take i) := by
    intro i
    obtain ⟨e, he, rfl⟩ := List.mem_map.1 hmemp
    exact ⟨e, he, List.take_prefix i e.1⟩
  have hlt' : ∀ i < L, (p.take i).length < L := by intro i hi; rw [List.length_take]; omega
  have hdl : p.dropLast = p.take (L - 1) := by rw [List.dropLast_eq_take, hpL]
  rw [hdl] at hw1
  obtain ⟨g1, g2⟩ := wa.get id p hp hpL hmemp
  obtain ⟨g1', g2'⟩ := wb.get id p hp hpL (by rw [← hhh', ← hsp]; exact hmemp)
  have ha := honestPath_of_hist hL hist hids hn htot p hpL hlt (fun i => fx (p.take i)) g2
    (((g2 (L - 1) (by omega)).leaf (by omega)).2 hw1)
  have hb := honestPath_of_hist hL hist' hids' hn' htot' p hpL hlt (fun i => fx' (p.take i)) g2'
    (((g2' (L - 1) (by omega)).leaf (by omega)).2 (by rw [← hhh', ← hwc]; exact hw1))
  rw [← hhh', ← hl] at hb
  have hle : latest hh p ≤ totalAmount hh := by
    rw [hhh, ← amountBelow_self hids p hpL]
    exact amountBelow_le_total (byPath_nonneg hn) _
  exact prove_likely hE hα hg hcyc h.pp hH hPF la lb wa.PP wb.PP wa.fanOut wb.fanOut wa.pp wb.pp id p
    (by rw [wa.id2Path]; exact hp) (by rw [wb.id2Path]; exact hp) hpL hlt (fun i => fx (p.take i)) (fun i => fx' (p.take i)) _ _ _
    g1 g1' ha hb (latest_nonneg (byPath_nonneg hn) p) (lt_of_le_of_lt hle htot)
    (fun i hi => hV _ (hlt' i hi) (htp i)) (fun i hi => by unfold dvec; rw [(hpub _ (hlt' i hi) (htp i)).2]) m lp hm

theorem view_likely {E : Curve G1 G2 GT} (hE : E.Lawful) {env env' : Env} (henv : env.Lawful) (henv' : env'.Lawful) {α : Zr}
    (hα : α ≠ 0) (hg : E.genG1 ≠ 0) (hcyc : PrimeOrder G1) {F L : ℕ} {ls : LiabilitySet G1 G2 GT} (h : NewSet E α F L ls)
    {k : ℕ}
    (hH : Fin k → ls.pp.RPPP.H ≠ 0) (hPF : Fin k → ls.pp.POEPP.F ≠ 0) (hist hist' : List (Str × ℤ))
    (hsame : hist.map Prod.fst = hist'.map Prod.fst) (hne : hist ≠ []) (hids : ValidIds ls.tree.id2Path F L hist)
    (hn : ∀ e ∈ hist, 0 ≤ e.2) (hn' : ∀ e ∈ hist', 0 ≤ e.2)
    (htot : totalAmount (byPath ls.tree.id2Path hist) < 2 ^ 63)
    (htot' : totalAmount (byPath ls.tree.id2Path hist') < 2 ^ 63) (ids : Fin k → Str) (withTotal : Bool)
    (hT : withTotal = true → totalAmount (byPath ls.tree.id2Path hist) = totalAmount (byPath ls.tree.id2Path hist'))
    (hmem : ∀ i, ids i ∈ hist.map Prod.fst)
    (hlat : ∀ i p, ls.tree.id2Path (ids i) = some p →
      latest (byPath ls.tree.id2Path hist) p = latest (byPath ls.tree.id2Path hist') p)
    (hw : ∀ i p, ls.tree.id2Path (ids i) = some p → writesBelow (byPath ls.tree.id2Path hist) p.dropLast = 1)
    (o : View G1 k)
    (ho : ∀ i p, ls.tree.id2Path (ids i) = some p →
      ∃ m lp, o.proofs i = some (some (m, lp)) ∧ MasksNonzero E ls.pp p lp) :
    EquallyLikely (fun r : (ℕ → Zr) × (Fin k → ProveRand) =>
        Blinding ls.s.tick (L * hist.length) r.1 ∧ ∀ i, Drawn F L (r.2 i))
      (observe E env ls hist ids withTotal) (observe E env' ls hist' ids withTotal) o := by
  have hL := h.pp.depth
  have hne' : hist' ≠ [] := by
    rintro rfl
    simp at hsame
    exact hne hsame
  have hids' : ValidIds ls.tree.id2Path F L hist' := by
    intro e he
    have : e.1 ∈ hist.map Prod.fst := by rw [hsame]; exact List.mem_map.2 ⟨e, he, rfl⟩
    obtain ⟨e', he', h1⟩ := List.mem_map.1 this
    rw [← h1]
    exact hids e' he'
  set hh := byPath ls.tree.id2Path hist with hhh
  set hh' := byPath ls.tree.id2Path hist' with hhh'
  have hsp : hh.map Prod.fst = hh'.map Prod.fst := by
    have : ∀ l : List (Str × ℤ), (byPath ls.tree.id2Path l).map Prod.fst
        = (l.map Prod.fst).map fun i => (ls.tree.id2Path i).getD [] := by
      intro l; simp [byPath]
    rw [hhh, hhh', this, this, hsame]
  have htc := touched_congr hsp
  have hwc : ∀ q, writesBelow hh q = writesBelow hh' q := by
    intro q
    have : ∀ l : List (List ℕ × ℤ), writesBelow l q = (l.map Prod.fst).countP fun p => decide (q <+: p) := by
      intro l
      unfold writesBelow
      rw [List.countP_map]
      rfl
    rw [this, this, hsp]
  have hlen : hh.length = hist.length := by simp [hhh, byPath]
  have hpath : ∀ i, ∃ p, ls.tree.id2Path (ids i) = some p ∧ p.length = L ∧ (∀ x ∈ p, x < F) ∧ p ∈ hh.map Prod.fst := by
    intro i
    obtain ⟨e, he, h1⟩ := List.mem_map.1 (hmem i)
    obtain ⟨p, hp, hpL, hlt⟩ := hids e he
    refine ⟨p, by rw [← h1, hp], hpL, hlt, ?_⟩
    rw [hhh]
    exact List.mem_map.2 ⟨(p, e.2), List.mem_map.2 ⟨e, he, by simp [hp]⟩, rfl⟩
  have htl : touched hh [] := by
    obtain ⟨e, l, he⟩ := List.exists_cons_of_ne_nil hne
    refine ⟨((ls.tree.id2Path e.1).getD [], e.2), ?_, List.nil_prefix⟩
    rw [hhh, he]
    exact List.mem_cons_self
  -- the match
  have hfin : Finite {r : (ℕ → Zr) × (Fin k → ProveRand) //
      Blinding ls.s.tick (L * hist.length) r.1 ∧ ∀ i, Drawn F L (r.2 i)} := by
    have f1 := finite_blinding ls.s.tick (L * hist.length)
    have f2 := finite_drawn F L
    refine Finite.of_injective (β := {ρ : ℕ → Zr // Blinding ls.s.tick (L * hist.length) ρ} × (Fin k → {r // Drawn F L r}))
      (fun r => (⟨r.1.1, r.2.1⟩, fun i => ⟨r.1.2 i, r.2.2 i⟩)) ?_
    rintro ⟨⟨a, b⟩, h1⟩ ⟨⟨c, d⟩, h2⟩ heq
    simp only [Prod.mk.injEq, Subtype.mk.injEq] at heq
    apply Subtype.ext
    refine Prod.ext heq.1 (funext fun i => ?_)
    exact congrArg Subtype.val (congrFun heq.2 i)
  refine equallyLikely_of_equiv hfin ?_
  refine pair_equiv (Equiv.addRight (shift F L ls.s.tick α hh hh'))
    (fun ρ rnds => (Blinding ls.s.tick (L * hist.length) ρ ∧ ∀ i, Drawn F L (rnds i)) ∧
      observe E env ls hist ids withTotal (ρ, rnds) = some o)
    (fun ρ rnds => (Blinding ls.s.tick (L * hist.length) ρ ∧ ∀ i, Drawn F L (rnds i)) ∧
      observe E env' ls hist' ids withTotal (ρ, rnds) = some o) ?_
  intro ρ
  obtain ⟨ρ', hρ'⟩ : ∃ ρ', ρ' = Equiv.addRight (shift F L ls.s.tick α hh hh') ρ := ⟨_, rfl⟩
  rw [← hρ']
  have hρk : ∀ k, ρ' k = ρ k + shift F L ls.s.tick α hh hh' k := by intro k; rw [hρ']; rfl
  have hbl : Blinding ls.s.tick (L * hist.length) ρ ↔ Blinding ls.s.tick (L * hist.length) ρ' := by
    unfold Blinding
    refine forall_congr' fun k => forall_congr' fun hk => ?_
    rw [hρk, shift_out (by rw [hlen]; exact hk), add_zero]
  obtain ⟨la, fx, wa, oa⟩ := observe_eq hE henv h hist hne hids hn htot ids withTotal ρ
  obtain ⟨lb, fx', wb, ob⟩ := observe_eq hE henv' h hist' hne' hids' hn' htot' ids withTotal ρ'
  -- the public parts agree
  have hV : ∀ q, q.length < L → touched hh q → (fx q).V = (fx' q).V := by
    intro q hq ht
    rw [wa.V q hq ht, wb.V q hq ((htc q).1 ht), ← hhh, ← hhh']
    dsimp only
    rw [← drawAt_congr L ls.s.tick hsp q, hρk, shift_at hq ht]
    congr 1
    have : α ^ (F + 2) ≠ 0 := pow_ne_zero _ hα
    field_simp
    ring
  obtain ⟨hpub, hmatch'⟩ := stage_match hE hα hg hcyc h hist hist' hsame hids hn hn' htot htot' wa wb hV
  have hmatch : ∀ i p, ls.tree.id2Path (ids i) = some p → ∀ m lp, MasksNonzero E ls.pp p lp →
      EquallyLikely (Drawn F L) (fun rnd => la.proveLiability E { env with rand := ρ } rnd (ids i))
        (fun rnd => lb.proveLiability E { env' with rand := ρ' } rnd (ids i)) (some (m, lp)) := fun i p hp =>
    hmatch' (hH i) (hPF i) (ids i) p hp (hmem i) (hlat i p hp) (hw i p hp)
  choose fp hfp using fun i => hpath i
  choose fm flp hfo hfm using fun i => ho i (fp i) (hfp i).1
  by_cases hpre : Blinding ls.s.tick (L * hist.length) ρ ∧ o.root = some ((fx []).V, (fx []).W) ∧
      o.total = if withTotal then some (totalFor E α F (fx []).V (totalAmount hh)) else none
  · obtain ⟨hB, hr, ht⟩ := hpre
    have hL0 : ([] : List ℕ).length < L := by simp; omega
    have ht' : o.total = if withTotal then some (totalFor E α F (fx' []).V (totalAmount hh')) else none := by
      rw [ht]
      cases withTotal with
      | false => rfl
      | true => rw [hV [] hL0 htl, hT rfl]
    have hr' : o.root = some ((fx' []).V, (fx' []).W) := by
      rw [hr, hV [] hL0 htl, (hpub [] hL0 htl).1]
    obtain ⟨e⟩ := pi_equiv (fun i r => Drawn F L r ∧ la.proveLiability E { env with rand := ρ } r (ids i) = some (some (fm i, flp i)))
      (fun i r => Drawn F L r ∧ lb.proveLiability E { env' with rand := ρ' } r (ids i) = some (some (fm i, flp i)))
      (fun i => (hmatch i (fp i) (hfp i).1 (fm i) (flp i) (hfm i)).equiv)
    refine ⟨((Equiv.subtypeEquivRight fun rnds => ?_).trans e).trans (Equiv.subtypeEquivRight fun rnds => ?_)⟩
    · rw [oa rnds, Option.some.injEq]
      constructor
      · rintro ⟨⟨-, hd⟩, heq⟩ i
        refine ⟨hd i, ?_⟩
        rw [← hfo i, ← heq]
      · intro hall
        refine ⟨⟨hB, fun i => (hall i).1⟩, ?_⟩
        obtain ⟨oroot, ototal, oproofs⟩ := o
        dsimp only at hr ht hfo
        rw [hr, ht]
        congr 1
        funext i
        rw [hfo i]
        exact (hall i).2
    · rw [ob rnds, Option.some.injEq]
      constructor
      · intro hall
        refine ⟨⟨hbl.1 hB, fun i => (hall i).1⟩, ?_⟩
        obtain ⟨oroot, ototal, oproofs⟩ := o
        dsimp only at hr' ht' hfo
        rw [hr', ht']
        congr 1
        funext i
        rw [hfo i]
        exact (hall i).2
      · rintro ⟨⟨-, hd⟩, heq⟩ i
        refine ⟨hd i, ?_⟩
        rw [← hfo i, ← heq]
  · have i1 : IsEmpty {rnds : Fin k → ProveRand // (Blinding ls.s.tick (L * hist.length) ρ ∧ ∀ i, Drawn F L (rnds i)) ∧
        observe E env ls hist ids withTotal (ρ, rnds) = some o} := by
      refine ⟨fun r => hpre ⟨r.2.1.1, ?_⟩⟩
      have := r.2.2
      rw [oa r.1, Option.some.injEq] at this
      rw [← this]
      exact ⟨rfl, rfl⟩
    have i2 : IsEmpty {rnds : Fin k → ProveRand // (Blinding ls.s.tick (L * hist.length) ρ' ∧ ∀ i, Drawn F L (rnds i)) ∧
        observe E env' ls hist' ids withTotal (ρ', rnds) = some o} := by
      have hL0 : ([] : List ℕ).length < L := by simp; omega
      refine ⟨fun r => hpre ⟨hbl.2 r.2.1.1, ?_⟩⟩
      have := r.2.2
      rw [ob r.1, Option.some.injEq] at this
      rw [← this]
      refine ⟨by rw [hV [] hL0 htl, (hpub [] hL0 htl).1], ?_⟩
      cases withTotal with
      | false => rfl
      | true => rw [hV [] hL0 htl, hT rfl]
    exact ⟨Equiv.equivOfIsEmpty _ _⟩

end PoL.Pol
