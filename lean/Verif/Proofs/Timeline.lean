import Verif.Proofs.TimelineAmounts
import Verif.Props.Updates

/-! # Publishing several times: the match between two sequences of batches (helper lemmas) -/

set_option linter.unusedSectionVars false

namespace PoL.Pol
open Spec BP PP Verkle

variable {G1 G2 GT : Type} [AddCommGroup G1] [Module Zr G1] [AddCommGroup G2] [Module Zr G2]
  [AddCommGroup GT] [Module Zr GT] [DecidableEq G1] [DecidableEq GT]

theorem upTo_ne {A : Type} {b : ℕ → List A} (h : b 0 ≠ []) (t : ℕ) : upTo b t ≠ [] := by
  induction t with
  | zero => exact h
  | succ t ih =>
    rw [upTo]
    exact List.append_ne_nil_of_left_ne_nil ih _

theorem byPath_upTo (f : Str → Option (List ℕ)) (b : ℕ → List (Str × ℤ)) (t : ℕ) :
    byPath f (upTo b t) = upTo (fun t => byPath f (b t)) t := upTo_map _ b t

theorem after_eq {E : Curve G1 G2 GT} (hE : E.Lawful) {env : Env} (henv : env.Lawful) {α : Zr} {F L : ℕ}
    {ls : LiabilitySet G1 G2 GT} (h : NewSet E α F L ls) (batch : ℕ → List (Str × ℤ)) (hne : batch 0 ≠ []) (n : ℕ)
    (hids : ∀ t ≤ n, ValidIds ls.tree.id2Path F L (upTo batch t)) (hn : ∀ t ≤ n, ∀ e ∈ upTo batch t, 0 ≤ e.2) :
    ∃ t0 s0, ls.tree.puts E env (batch 0) ls.s = some (t0, s0) ∧ ∀ t ≤ n, ∃ tt st m,
      ls.tree.puts E env (upTo batch t) ls.s = some (tt, st) ∧
      after E env ls batch t = some { ls with tree := tt, s := st, memRoot := m } ∧
      (if m.length ≠ 0 then m else st.db []) = s0.db [] := by
  have hL := h.pp.depth
  have hputs : ∀ t ≤ n, ∃ tt st, ls.tree.puts E env (upTo batch t) ls.s = some (tt, st) := by
    intro t ht
    obtain ⟨tt, st, h1, -⟩ := puts_good hE henv α F h.tree.bound.le ls.tree h.tree.pp h.tree.fanOut h.tree.root L
      (by omega) (upTo batch t) ls.s (hids t ht)
    exact ⟨tt, st, h1⟩
  obtain ⟨t0, s0, h0⟩ := hputs 0 (by omega)
  obtain ⟨v0, x0, -, -, hx0⟩ := root_data hE henv h.tree (by omega) (upTo batch 0) (upTo_ne hne 0) (hids 0 (by omega)) h0
  have hne0 : (s0.db []).length ≠ 0 := by
    intro hc
    rw [load_eq, if_pos hc] at hx0
    simp at hx0
  refine ⟨t0, s0, h0, fun t => ?_⟩
  induction t with
  | zero =>
    intro _
    refine ⟨t0, s0, ls.memRoot, h0, (sets_iff E _ _ ls _).2 ⟨hn 0 (by omega), t0, s0, h0, rfl⟩, ?_⟩
    rw [if_neg (by rw [h.memRoot]; simp)]
  | succ t ih =>
    intro ht
    obtain ⟨tt, st, m, hp, ha, hm⟩ := ih (by omega)
    obtain ⟨v, x, hv, hd, -⟩ := root_data hE henv h.tree (by omega) (upTo batch t) (upTo_ne hne t) (hids t (by omega)) hp
    have hroot := root_eq (E := E) (ls := { ls with tree := tt, s := st, memRoot := m }) hv hd x0 (by
      dsimp only
      rw [hm]
      exact load_fromBytes hx0)
    dsimp only at hroot
    rw [hm] at hroot
    obtain ⟨tt', st', hp'⟩ := hputs (t + 1) ht
    have hp2 : tt.puts E env (batch (t + 1)) st = some (tt', st') := by
      have e := hp'
      unfold Tree.puts at e hp
      rw [upTo, List.foldlM_append, hp] at e
      exact e
    refine ⟨tt', st', s0.db [], hp', ?_, if_pos hne0⟩
    rw [after, ha, Option.bind_some, hroot, Option.bind_some]
    exact (sets_iff E _ _ _ _).2 ⟨fun e he => hn (t + 1) ht e (List.mem_append_right _ he), tt', st', hp2, rfl⟩

theorem touched_upTo {b : ℕ → List (List ℕ × ℤ)} {t n : ℕ} (ht : t ≤ n) {q : List ℕ} (h : touched (upTo b t) q) : touched (upTo b n) q := by
  obtain ⟨e, he, hq⟩ := h
  obtain ⟨u, hu, he⟩ := mem_upTo.1 he
  exact ⟨e, mem_upTo.2 ⟨u, by omega, he⟩, hq⟩

theorem upTo_prefix {A : Type} (b : ℕ → List A) {t n : ℕ} (ht : t ≤ n) : upTo b t <+: upTo b n := by
  induction n with
  | zero => rw [Nat.le_zero.1 ht]
  | succ n ih =>
    rcases Nat.lt_succ_iff_lt_or_eq.1 (Nat.lt_succ_of_le ht) with h | rfl
    · exact (ih (by omega)).trans (List.prefix_append _ _)
    · exact List.prefix_rfl

theorem drawAt_upTo (L t0 : ℕ) {b : ℕ → List (List ℕ × ℤ)} {t n : ℕ} (ht : t ≤ n) {q : List ℕ} (h : touched (upTo b t) q) :
    drawAt L t0 (upTo b n) q = drawAt L t0 (upTo b t) q := by
  obtain ⟨r, hr⟩ := upTo_prefix b ht
  unfold drawAt
  rw [← hr, List.findIdx_append, if_pos (findIdx_touched.2 h)]

theorem byPath_fst (f : Str → Option (List ℕ)) (l : List (Str × ℤ)) :
    (byPath f l).map Prod.fst = (l.map Prod.fst).map fun i => (f i).getD [] := by simp [byPath]

theorem agree_of_same {f : Str → Option (List ℕ)} {F L T : ℕ} (batch batch' : ℕ → List (Str × ℤ))
    (hs : SameWhereRewritten f T batch batch') (hids : ∀ t, ValidIds f F L (batch t)) :
    Agree L T (fun t => byPath f (batch t)) (fun t => byPath f (batch' t)) where
  fst t := by
    rw [byPath_fst, byPath_fst, hs.ids]
  len t e he := by
    obtain ⟨e', he', rfl⟩ := List.mem_map.1 he
    obtain ⟨p, hp, hpL, -⟩ := hids t e' he'
    simp [hp, hpL]
  again q hq u := by
    obtain ⟨t, h1, h2, e, he, rfl⟩ := hq
    exact hs.rewritten t h1 h2 e he u

theorem finite_over (t0 n F L T k : ℕ) : Finite {r : (ℕ → Zr) × (Fin T → Fin k → ProveRand) //
      Blinding t0 n r.1 ∧ ∀ t i, Drawn F L (r.2 t i)} := by
  have f1 := finite_blinding t0 n
  have f2 := finite_drawn F L
  refine Finite.of_injective (β := {ρ : ℕ → Zr // Blinding t0 n ρ} × (Fin T → Fin k → {r // Drawn F L r}))
    (fun r => (⟨r.1.1, r.2.1⟩, fun t i => ⟨r.1.2 t i, r.2.2 t i⟩)) ?_
  rintro ⟨⟨a, b⟩, h1⟩ ⟨⟨c, d⟩, h2⟩ heq
  simp only [Prod.mk.injEq, Subtype.mk.injEq] at heq
  apply Subtype.ext
  refine Prod.ext heq.1 (funext fun t => funext fun i => ?_)
  exact congrArg Subtype.val (congrFun (congrFun heq.2 t) i)

theorem over_likely {E : Curve G1 G2 GT} (hE : E.Lawful) {env env' : Env} (henv : env.Lawful) (henv' : env'.Lawful) {α : Zr}
    (hα : α ≠ 0) (hg : E.genG1 ≠ 0) (hcyc : PrimeOrder G1) {F L : ℕ} {ls : LiabilitySet G1 G2 GT} (h : NewSet E α F L ls)
    {n k : ℕ}
    (hH : Fin k → ls.pp.RPPP.H ≠ 0) (hPF : Fin k → ls.pp.POEPP.F ≠ 0) (batch batch' : ℕ → List (Str × ℤ))
    (hsame : SameWhereRewritten ls.tree.id2Path (n + 1) batch batch') (hne : batch 0 ≠ [])
    (hids : ∀ t, ValidIds ls.tree.id2Path F L (batch t))
    (hn : ∀ t, ∀ e ∈ batch t, 0 ≤ e.2) (hn' : ∀ t, ∀ e ∈ batch' t, 0 ≤ e.2)
    (htot : ∀ t ≤ n, totalAmount (byPath ls.tree.id2Path (upTo batch t)) < 2 ^ 63)
    (htot' : ∀ t ≤ n, totalAmount (byPath ls.tree.id2Path (upTo batch' t)) < 2 ^ 63)
    (ids : Fin (n + 1) → Fin k → Str) (withTotal : Bool)
    (hT : withTotal = true → totalAmount (byPath ls.tree.id2Path (batch 0)) = totalAmount (byPath ls.tree.id2Path (batch' 0)))
    (hmem : ∀ (t : Fin (n + 1)) i, ids t i ∈ (upTo batch t).map Prod.fst)
    (hlat : ∀ (t : Fin (n + 1)) i p, ls.tree.id2Path (ids t i) = some p →
      latest (byPath ls.tree.id2Path (upTo batch t)) p = latest (byPath ls.tree.id2Path (upTo batch' t)) p)
    (hw : ∀ (t : Fin (n + 1)) i p, ls.tree.id2Path (ids t i) = some p → writesBelow (byPath ls.tree.id2Path (upTo batch t)) p.dropLast = 1)
    (o : Fin (n + 1) → View G1 k)
    (ho : ∀ t i p, ls.tree.id2Path (ids t i) = some p →
      ∃ m lp, (o t).proofs i = some (some (m, lp)) ∧ MasksNonzero E ls.pp p lp) :
    EquallyLikely (fun r : (ℕ → Zr) × (Fin (n + 1) → Fin k → ProveRand) =>
        Blinding ls.s.tick (L * (upTo batch n).length) r.1 ∧ ∀ t i, Drawn F L (r.2 t i))
      (observeOver E env ls batch ids withTotal) (observeOver E env' ls batch' ids withTotal) (fun t => some (o t)) := by
  have hL := h.pp.depth
  have hidsU : ∀ t, ValidIds ls.tree.id2Path F L (upTo batch t) := by
    intro t e he
    obtain ⟨u, -, he⟩ := mem_upTo.1 he
    exact hids u e he
  have hsU : ∀ t, (upTo batch t).map Prod.fst = (upTo batch' t).map Prod.fst := by
    intro t
    rw [upTo_map, upTo_map]
    exact upTo_congr t fun u _ => hsame.ids u
  have hidsU' : ∀ t, ValidIds ls.tree.id2Path F L (upTo batch' t) := by
    intro t e he
    have : e.1 ∈ (upTo batch t).map Prod.fst := by rw [hsU]; exact List.mem_map.2 ⟨e, he, rfl⟩
    obtain ⟨e', he', h1⟩ := List.mem_map.1 this
    rw [← h1]
    exact hidsU t e' he'
  have hnU : ∀ t, ∀ e ∈ upTo batch t, 0 ≤ e.2 := by
    intro t e he
    obtain ⟨u, -, he⟩ := mem_upTo.1 he
    exact hn u e he
  have hnU' : ∀ t, ∀ e ∈ upTo batch' t, 0 ≤ e.2 := by
    intro t e he
    obtain ⟨u, -, he⟩ := mem_upTo.1 he
    exact hn' u e he
  have hne' : batch' 0 ≠ [] := by
    intro hc
    have := hsame.ids 0
    rw [hc] at this
    simp at this
    exact hne this
  set b : ℕ → List (List ℕ × ℤ) := fun t => byPath ls.tree.id2Path (batch t) with hb
  set b' : ℕ → List (List ℕ × ℤ) := fun t => byPath ls.tree.id2Path (batch' t) with hb'
  have hU : ∀ t, byPath ls.tree.id2Path (upTo batch t) = upTo b t := byPath_upTo _ _
  have hU' : ∀ t, byPath ls.tree.id2Path (upTo batch' t) = upTo b' t := byPath_upTo _ _
  have hag : Agree L (n + 1) b b' := agree_of_same batch batch' hsame hids
  have hlen : (upTo b n).length = (upTo batch n).length := by rw [← hU]; simp [byPath]
  have htl : ∀ t, touched (upTo b t) [] := by
    intro t
    obtain ⟨e, l, he⟩ := List.exists_cons_of_ne_nil hne
    exact ⟨((ls.tree.id2Path e.1).getD [], e.2), mem_upTo.2 ⟨0, by omega, by rw [hb]; dsimp only; rw [he]; exact List.mem_cons_self⟩,
      List.nil_prefix⟩
  have hTt : withTotal = true → ∀ t ≤ n, totalAmount (upTo b t) = totalAmount (upTo b' t) := by
    intro hwt t ht
    have h1 := amount_diff hag (by omega) (show t < n + 1 by omega) []
    have h2 : ∀ l : List (List ℕ × ℤ), amountBelow l [] = totalAmount l := by intro l; simp [amountBelow, totalAmount]
    have h3 := hT hwt
    rw [h2, h2, h2, h2] at h1
    change totalAmount (b 0) = totalAmount (b' 0) at h3
    omega
  refine equallyLikely_of_equiv (finite_over _ _ _ _ _ _) ?_
  refine pair_equiv (Equiv.addRight (shift F L ls.s.tick α (upTo b n) (upTo b' n)))
    (fun ρ rnds => (Blinding ls.s.tick (L * (upTo batch n).length) ρ ∧ ∀ t i, Drawn F L (rnds t i)) ∧
      observeOver E env ls batch ids withTotal (ρ, rnds) = some fun t => some (o t))
    (fun ρ rnds => (Blinding ls.s.tick (L * (upTo batch n).length) ρ ∧ ∀ t i, Drawn F L (rnds t i)) ∧
      observeOver E env' ls batch' ids withTotal (ρ, rnds) = some fun t => some (o t)) ?_
  intro ρ
  obtain ⟨ρ', hρ'⟩ : ∃ ρ', ρ' = Equiv.addRight (shift F L ls.s.tick α (upTo b n) (upTo b' n)) ρ := ⟨_, rfl⟩
  rw [← hρ']
  have hρk : ∀ k, ρ' k = ρ k + shift F L ls.s.tick α (upTo b n) (upTo b' n) k := by intro k; rw [hρ']; rfl
  have hbl : Blinding ls.s.tick (L * (upTo batch n).length) ρ ↔ Blinding ls.s.tick (L * (upTo batch n).length) ρ' := by
    unfold Blinding
    refine forall_congr' fun k => forall_congr' fun hk => ?_
    rw [hρk, shift_out (by rw [hlen]; exact hk), add_zero]
  have he1 : Env.Lawful { env with rand := ρ } := ⟨henv.1, henv.2, henv.3, henv.4⟩
  have he2 : Env.Lawful { env' with rand := ρ' } := ⟨henv'.1, henv'.2, henv'.3, henv'.4⟩
  obtain ⟨ta, sa, pa, alla⟩ := after_eq hE he1 h batch hne n (fun t _ => hidsU t) (fun t _ => hnU t)
  obtain ⟨tb, sb, pb, allb⟩ := after_eq hE he2 h batch' hne' n (fun t _ => hidsU' t) (fun t _ => hnU' t)
  -- the commitments agree at every time
  have hVt : ∀ t ≤ n, ∀ (la lb : LiabilitySet G1 G2 GT) (fx fx' : List ℕ → Verkle.Vertex G1),
      Written E { env with rand := ρ } α F L ls (upTo batch t) la fx →
      Written E { env' with rand := ρ' } α F L ls (upTo batch' t) lb fx' →
      ∀ q, q.length < L → touched (byPath ls.tree.id2Path (upTo batch t)) q → (fx q).V = (fx' q).V := by
    intro t ht la lb fx fx' wa wb q hq htq
    have htq' : touched (byPath ls.tree.id2Path (upTo batch' t)) q := by
      rw [hU'] 
      rw [hU] at htq
      exact (touched_congr (paths_same hag t) q).1 htq
    rw [wa.V q hq htq, wb.V q hq htq']
    rw [hU] at htq ⊢
    rw [hU'] at htq' ⊢
    dsimp only
    rw [← drawAt_congr L ls.s.tick (paths_same hag t) q, ← drawAt_upTo L ls.s.tick ht htq, hρk, shift_at hq (touched_upTo ht htq)]
    have h1 := offset_diff (F := F) α hag (by omega) (show t < n + 1 by omega) q
    have h2 := offset_diff (F := F) α hag (by omega) (show n < n + 1 by omega) q
    rw [h2, ← h1]
    congr 1
    have : α ^ (F + 2) ≠ 0 := pow_ne_zero _ hα
    field_simp
    ring
  -- the roots
  obtain ⟨f0, w0, x0, -⟩ := publish_eq hE he1 h (batch 0) hne (hids 0) (hn 0) (htot 0 (by omega)) (ids 0) withTotal pa
  obtain ⟨f0', w0', x0', -⟩ := publish_eq hE he2 h (batch' 0) hne' (hidsU' 0) (hn' 0) (htot' 0 (by omega)) (ids 0) withTotal pb
  have hL0 : ([] : List ℕ).length < L := by simp; omega
  have hV0 := hVt 0 (by omega) _ _ f0 f0' (w0 []) (w0' [])
  have hroot : (f0 []).V = (f0' []).V ∧ (f0 []).W = (f0' []).W :=
    ⟨hV0 [] hL0 (by rw [hU]; exact htl 0), ((stage_match hE hα hg hcyc h (batch 0) (batch' 0) (hsU 0) (hids 0) (hn 0) (hn' 0) (htot 0 (by omega))
      (htot' 0 (by omega)) (w0 []) (w0' []) hV0).1 [] hL0 (by exact (hU 0 ▸ htl 0))).1⟩
  -- one time at a time
  have hone : ∀ t : Fin (n + 1), Nonempty (
      {rnds : Fin k → ProveRand // (∀ i, Drawn F L (rnds i)) ∧
        (after E { env with rand := ρ } ls batch t).bind (publish E { env with rand := ρ } (ids t) withTotal rnds) = some (o t)} ≃
      {rnds : Fin k → ProveRand // (∀ i, Drawn F L (rnds i)) ∧
        (after E { env' with rand := ρ' } ls batch' t).bind (publish E { env' with rand := ρ' } (ids t) withTotal rnds) = some (o t)}) := by
    intro t
    have htn : (t : ℕ) ≤ n := by have := t.2; omega
    obtain ⟨t1, s1, m1, p1, a1, r1⟩ := alla t htn
    obtain ⟨t2, s2, m2, p2, a2, r2⟩ := allb t htn
    obtain ⟨fx, wa, -, oa⟩ := publish_eq hE he1 h (upTo batch t) (upTo_ne hne t) (hidsU t) (hnU t) (htot t htn) (ids t) withTotal p1
    obtain ⟨fx', wb, -, ob⟩ := publish_eq hE he2 h (upTo batch' t) (upTo_ne hne' t) (hidsU' t) (hnU' t) (htot' t htn) (ids t) withTotal p2
    replace oa := oa m1 (f0 []) (by rw [r1]; exact x0)
    replace ob := ob m2 (f0' []) (by rw [r2]; exact x0')
    replace wa := wa (if m1.length ≠ 0 then m1 else s1.db [])
    replace wb := wb (if m2.length ≠ 0 then m2 else s2.db [])
    have hV := hVt t htn _ _ fx fx' wa wb
    obtain ⟨-, hmatch⟩ := stage_match hE hα hg hcyc h (upTo batch t) (upTo batch' t) (hsU t) (hidsU t) (hnU t) (hnU' t) (htot t htn)
      (htot' t htn) wa wb hV
    rw [a1, a2]
    simp only [Option.bind_some, oa, ob]
    generalize hla : ({ ls with tree := t1, s := s1, memRoot := if m1.length ≠ 0 then m1 else s1.db [] } : LiabilitySet G1 G2 GT) = la at *
    generalize hlb : ({ ls with tree := t2, s := s2, memRoot := if m2.length ≠ 0 then m2 else s2.db [] } : LiabilitySet G1 G2 GT) = lb at *
    rw [← hroot.1, ← hroot.2, ← hV [] hL0 (by rw [hU]; exact htl t)]
    have htt : (if withTotal = true then some (totalFor E α F (fx []).V (totalAmount (byPath ls.tree.id2Path (upTo batch t)))) else none)
        = if withTotal = true then some (totalFor E α F (fx []).V (totalAmount (byPath ls.tree.id2Path (upTo batch' t)))) else none := by
      cases hwt : withTotal with
      | false => rfl
      | true => rw [hU, hU', hTt hwt t htn]
    rw [← htt]
    have hp : ∀ i, ∃ p, ls.tree.id2Path (ids t i) = some p := by
      intro i
      obtain ⟨e, he, h1⟩ := List.mem_map.1 (hmem t i)
      obtain ⟨p, hp, -⟩ := hidsU t e he
      exact ⟨p, by rw [← h1, hp]⟩
    choose fp hfp using hp
    choose fm flp hfo hfm using fun i => ho t i (fp i) (hfp i)
    by_cases hpre : (o t).root = some ((f0 []).V, (f0 []).W) ∧
      (o t).total = if withTotal = true then some (totalFor E α F (fx []).V (totalAmount (byPath ls.tree.id2Path (upTo batch t)))) else none
    · obtain ⟨e⟩ := pi_equiv
        (fun i r => Drawn F L r ∧ la.proveLiability E { env with rand := ρ } r (ids t i) = some (some (fm i, flp i)))
        (fun i r => Drawn F L r ∧ lb.proveLiability E { env' with rand := ρ' } r (ids t i) = some (some (fm i, flp i)))
        (fun i => (hmatch (hH i) (hPF i) (ids t i) (fp i) (hfp i) (hmem t i) (hlat t i _ (hfp i)) (hw t i _ (hfp i)) (fm i) (flp i) (hfm i)).equiv)
      have key : ∀ (g : ProveRand → Fin k → Option (Option (ℤ × LiabilityProof G1))) (rnds : Fin k → ProveRand),
          ((∀ i, Drawn F L (rnds i)) ∧ some (⟨some ((f0 []).V, (f0 []).W),
            if withTotal = true then some (totalFor E α F (fx []).V (totalAmount (byPath ls.tree.id2Path (upTo batch t)))) else none,
            fun i => g (rnds i) i⟩ : View G1 k) = some (o t)) ↔
          ∀ i, Drawn F L (rnds i) ∧ g (rnds i) i = some (some (fm i, flp i)) := by
        intro g rnds
        rw [Option.some.injEq]
        constructor
        · rintro ⟨hd, heq⟩ i
          refine ⟨hd i, ?_⟩
          rw [← hfo i, ← heq]
        · intro hall
          refine ⟨fun i => (hall i).1, ?_⟩
          have e1 : (fun i => g (rnds i) i) = (o t).proofs := by
            funext i
            rw [hfo i]
            exact (hall i).2
          rw [e1, ← hpre.1, ← hpre.2]
      exact ⟨((Equiv.subtypeEquivRight fun rnds => key (fun r i => la.proveLiability E { env with rand := ρ } r (ids t i)) rnds).trans e).trans
        (Equiv.subtypeEquivRight fun rnds => (key (fun r i => lb.proveLiability E { env' with rand := ρ' } r (ids t i)) rnds).symm)⟩
    · have em : ∀ (g : ProveRand → Fin k → Option (Option (ℤ × LiabilityProof G1))),
          IsEmpty {rnds : Fin k → ProveRand // (∀ i, Drawn F L (rnds i)) ∧ some (⟨some ((f0 []).V, (f0 []).W),
            if withTotal = true then some (totalFor E α F (fx []).V (totalAmount (byPath ls.tree.id2Path (upTo batch t)))) else none,
            fun i => g (rnds i) i⟩ : View G1 k) = some (o t)} := by
        intro g
        refine ⟨fun r => hpre ?_⟩
        have := r.2.2
        rw [Option.some.injEq] at this
        rw [← this]
        exact ⟨rfl, rfl⟩
      have i1 := em fun r i => la.proveLiability E { env with rand := ρ } r (ids t i)
      have i2 := em fun r i => lb.proveLiability E { env' with rand := ρ' } r (ids t i)
      exact ⟨Equiv.equivOfIsEmpty _ _⟩
  by_cases hB : Blinding ls.s.tick (L * (upTo batch n).length) ρ
  · obtain ⟨e⟩ := pi_equiv _ _ hone
    have key : ∀ (ρ : ℕ → Zr) (env : Env) (batch0 : ℕ → List (Str × ℤ)) (rnds : Fin (n + 1) → Fin k → ProveRand),
        Blinding ls.s.tick (L * (upTo batch n).length) ρ →
        (((Blinding ls.s.tick (L * (upTo batch n).length) ρ ∧ ∀ t i, Drawn F L (rnds t i)) ∧
          observeOver E env ls batch0 ids withTotal (ρ, rnds) = some fun t => some (o t)) ↔
        ∀ t, (∀ i, Drawn F L (rnds t i)) ∧
          (after E { env with rand := ρ } ls batch0 t).bind (publish E { env with rand := ρ } (ids t) withTotal (rnds t)) = some (o t)) := by
      intro ρ env batch0 rnds hB
      unfold observeOver
      rw [Option.some.injEq, funext_iff]
      constructor
      · rintro ⟨⟨-, h1⟩, h2⟩ t
        exact ⟨h1 t, h2 t⟩
      · intro hall
        exact ⟨⟨hB, fun t => (hall t).1⟩, fun t => (hall t).2⟩
    exact ⟨((Equiv.subtypeEquivRight fun rnds => key ρ env batch rnds hB).trans e).trans
      (Equiv.subtypeEquivRight fun rnds => (key ρ' env' batch' rnds (hbl.1 hB)).symm)⟩
  · have i1 : IsEmpty {rnds : Fin (n + 1) → Fin k → ProveRand // (Blinding ls.s.tick (L * (upTo batch n).length) ρ ∧ ∀ t i, Drawn F L (rnds t i)) ∧
        observeOver E env ls batch ids withTotal (ρ, rnds) = some fun t => some (o t)} := ⟨fun r => hB r.2.1.1⟩
    have i2 : IsEmpty {rnds : Fin (n + 1) → Fin k → ProveRand // (Blinding ls.s.tick (L * (upTo batch n).length) ρ' ∧ ∀ t i, Drawn F L (rnds t i)) ∧
        observeOver E env' ls batch' ids withTotal (ρ', rnds) = some fun t => some (o t)} := ⟨fun r => hB (hbl.2 r.2.1.1)⟩
    exact ⟨Equiv.equivOfIsEmpty _ _⟩

/-- The commitments in a liability proof, in terms of the history. -/
theorem proof_commitment {E : Curve G1 G2 GT} (hE : E.Lawful) {env : Env} (henv : env.Lawful) {α : Zr} {F L : ℕ}
    {ls l : LiabilitySet G1 G2 GT} (h : NewSet E α F L ls) (hh : List (Str × ℤ)) (hv : ValidIds ls.tree.id2Path F L hh)
    (hs : ls.sets E env hh = some l) (id : Str) (p : List ℕ) (hp : ls.tree.id2Path id = some p) (hmem : id ∈ hh.map Prod.fst)
    (rnd : ProveRand) (m : ℤ) (lp : LiabilityProof G1) (hpr : l.proveLiability E env rnd id = some (some (m, lp))) (i : ℕ) (hi : i < L) :
    lp.V[i]? = some ((offset F L α (byPath ls.tree.id2Path hh) (p.take i)
        + env.rand (drawAt L ls.s.tick (byPath ls.tree.id2Path hh) (p.take i)) * α ^ (F + 2)) • E.genG1) := by
  have hL := h.pp.depth
  obtain ⟨e, hm, rfl⟩ := List.mem_map.1 hmem
  obtain ⟨p', hp', hpL, -⟩ := hv e hm
  rw [hp, Option.some.injEq] at hp'
  subst hp'
  obtain ⟨-, t, s, hputs, rfl⟩ := (sets_iff E env hh ls l).1 hs
  obtain ⟨t1, s1, hputs1, ht1, -⟩ := puts_good hE henv α F h.tree.bound.le ls.tree h.tree.pp h.tree.fanOut h.tree.root L
    (by omega) hh ls.s hv
  rw [hputs, Option.some.injEq, Prod.mk.injEq] at hputs1
  obtain ⟨rfl, rfl⟩ := hputs1
  have hmp : p ∈ (byPath ls.tree.id2Path hh).map Prod.fst :=
    List.mem_map.2 ⟨(p, e.2), List.mem_map.2 ⟨e, hm, by simp [hp]⟩, rfl⟩
  obtain ⟨path, n, vs, e1, e2, e3⟩ := prove_commitments hpr
  have e1' : ls.tree.id2Path e.1 = some path := by rw [ht1] at e1; exact e1
  rw [hp, Option.some.injEq] at e1'
  subst e1'
  obtain ⟨vs', hget, -, hvs⟩ := get_onPath hE henv h.tree (by omega) hh hv hputs e.1 p hp hpL hmp
  have e2' : t.get E env e.1 s.db = some (some (n, vs)) := e2
  rw [hget, Option.some.injEq, Option.some.injEq, Prod.mk.injEq] at e2'
  obtain ⟨-, rfl⟩ := e2'
  obtain ⟨x, hx, hfb, -⟩ := hvs i (by omega)
  obtain ⟨y, hy, hV, -⟩ := stored_public hE henv h.tree (by omega) hh hv hputs (p.take i)
    (by rw [List.length_take]; omega) ⟨_, List.mem_map.2 ⟨e, hm, rfl⟩, by simpa [hp] using List.take_prefix i p⟩
  obtain rfl : x = y := Option.some.inj (hfb.symm.trans (load_fromBytes hy))
  rw [e3 i (by omega), hx, Option.map_some, hV]

/-- What one more write below a vertex over the leaves changes in its commitment. -/
theorem offset_step {F L : ℕ} (α : Zr) {q : List ℕ} (hq : q.length + 1 = L) {h : List (List ℕ × ℤ)} (ht : touched h q) {a : ℕ} (ha : a < F)
    (b : ℤ) :
    offset F L α (h ++ [(q ++ [a], b)]) q = offset F L α h q + intToZr (b - latest h (q ++ [a])) * α ^ (a + 1)
      + intToZr (amountBelow (h ++ [(q ++ [a], b)]) q - latest h (q ++ [pathsBelow (h ++ [(q ++ [a], b)]) q]))
        * α ^ (pathsBelow (h ++ [(q ++ [a], b)]) q + 1) := by
  have h1 : ∀ j, amountBelow (h ++ [(q ++ [a], b)]) (q ++ [j]) = amountBelow h (q ++ [j]) + if j = a then b - latest h (q ++ [a]) else 0 := by
    intro j
    rw [amountBelow_concat]
    congr 2
    simp
  have h2 : amountBelow (h ++ [(q ++ [a], b)]) q = amountBelow h q + (b - latest h (q ++ [a])) := by
    rw [amountBelow_concat, if_pos (List.prefix_append _ _)]
  have h3 : expo α ((List.range F).map fun j => intToZr (amountBelow (h ++ [(q ++ [a], b)]) (q ++ [j])))
      = expo α ((List.range F).map fun j => intToZr (amountBelow h (q ++ [j]))) + intToZr (b - latest h (q ++ [a])) * α ^ (a + 1) := by
    unfold expo
    simp only [List.length_map, List.length_range]
    rw [← Finset.add_sum_erase _ _ (Finset.mem_range.2 ha), ← Finset.add_sum_erase (Finset.range F) _ (Finset.mem_range.2 ha)]
    have e : ∀ j ∈ (Finset.range F).erase a,
        ((List.range F).map fun j => intToZr (amountBelow (h ++ [(q ++ [a], b)]) (q ++ [j]))).getD j 0 * α ^ (j + 1)
        = ((List.range F).map fun j => intToZr (amountBelow h (q ++ [j]))).getD j 0 * α ^ (j + 1) := by
      intro j hj
      rw [Finset.mem_erase, Finset.mem_range] at hj
      simp [List.getD_eq_getElem?_getD, List.getElem?_map, List.getElem?_range hj.2, h1, hj.1]
    rw [Finset.sum_congr rfl e]
    simp only [List.getD_eq_getElem?_getD, List.getElem?_map, List.getElem?_range ha, Option.map_some, Option.getD_some, h1, if_true]
    unfold intToZr
    push_cast
    ring
  unfold offset
  rw [if_pos hq, if_pos hq, deviation_snoc F h _ q ht (List.prefix_append _ _), Polynomial.eval_add, expo_concat, expo_concat, h3]
  unfold strayed
  simp only [Polynomial.eval_sub, Polynomial.eval_mul, Polynomial.eval_C, Polynomial.eval_pow, Polynomial.eval_X, List.length_map,
    List.length_range]
  have h4 : amountBelow (h ++ [(q ++ [a], b)]) q - amountBelow h q = b - latest h (q ++ [a]) := by omega
  rw [h4]
  unfold intToZr
  rw [h2]
  push_cast
  ring

end PoL.Pol
