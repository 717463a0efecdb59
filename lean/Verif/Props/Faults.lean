import Verif.Proofs.FaultsPanic
import Verif.Props.PolParams

/-!
# A `Set` whose database calls fail can be repeated (C115)
-/

set_option linter.unusedSectionVars false

namespace PoL.Props
open Spec Pol Verkle Sparse

variable {G1 G2 GT : Type} [AddCommGroup G1] [Module Zr G1] [AddCommGroup G2] [Module Zr G2]
  [AddCommGroup GT] [Module Zr GT] [DecidableEq G1] [DecidableEq GT]

/-- C115, the model: over a database that answers every call, `Set` does what it does in the other files. -/
theorem C115_answering_database (E : Curve G1 G2 GT) (env : Env) (ls : LiabilitySet G1 G2 GT) (id : Str) (n : ℤ) :
    ls.setF E env ⟨Faults.none, id, n⟩ = ls.setR E env id n := by
  have hup : updateFaulty E ls.tree.PP env Faults.none = updateInnerVertexR E ls.tree.PP env := by
    funext key node raw b i s
    exact faulty_none node
  have hput : ls.tree.putF E env Faults.none id n ls.s = ls.tree.putR E env id n ls.s := by
    unfold Verkle.Tree.putF Verkle.Tree.putR
    rw [hup]
    cases ls.tree.id2Path id <;> rfl
  unfold LiabilitySet.setF LiabilitySet.setR
  dsimp only
  rw [hput]

/-- C115, first part: a `Set` panics if the database fails to store a vertex on its path, or to give the vertex or its
next child there.  (`hread`: a vertex is read once a `Set` below it has returned; the leaves are not in the database.) -/
theorem C115_failing_call_panics {E : Curve G1 G2 GT} (hE : E.Lawful) {env : Env} (henv : env.Lawful) {α : Zr} {F L : ℕ}
    {ls : LiabilitySet G1 G2 GT} (h : NewSet E α F L ls) (as : List Attempt) (hids : ValidIds ls.tree.id2Path F L (tried as))
    (a : Attempt) {p : List ℕ} (hp : ls.tree.id2Path a.id = some p) (hpl : p.length = L) (q : List ℕ) (j : ℕ)
    (hq : q ++ [j] <+: p)
    (hfail : a.faults.write (keyOf q) = true ∨
      (a.faults.reads (keyOf q) (keyOf q) = true ∧
        ∃ p', (p', true) ∈ outcomes ls.tree.id2Path as (ls.setsF E env as).1 ∧ q <+: p') ∨
      (a.faults.reads (keyOf q) (keyOf (q ++ [j])) = true ∧ q ++ [j] ≠ p)) :
    ((ls.setsF E env as).2.setF E env a).1 = false := by
  have hL := h.pp.depth
  have hs := struggling hE henv h.tree.bound.le h.tree.pp h.tree.fanOut h.tree.root (by omega : 1 ≤ L) as hids
  have hkeys := setsF_keys E env ls as (by rw [top_fresh h.tree.root]; exact keysOk_fresh [])
  obtain ⟨f1, -⟩ := setsF_fields E env ls as
  have hlen := setsF_length E env ls as
  generalize ls.setsF E env as = r at *
  by_cases ha : a.amount < 0
  · rw [setF_neg _ _ _ _ ha]
  · rw [← Bool.not_eq_true]
    intro hok
    rw [setF_path E env r.2 a ha (by rw [f1]; exact hp)] at hok
    obtain ⟨-, hc⟩ := putAtR_calls hE henv p [] hkeys hok
    obtain ⟨c1, c2, c3⟩ := hc q j hq
    rw [List.nil_append] at c1 c2 c3
    rcases hfail with hf | ⟨hf, p', hp', hqp⟩ | ⟨hf, hne⟩
    · rw [hf] at c1; cases c1
    · have hmem : touched (byPath ls.tree.id2Path (tried as)) q ∨ q = [] := by
        by_cases hr : q = []
        · exact .inr hr
        · left
          have hin : p' ∈ (outcomes ls.tree.id2Path as r.1).map Prod.fst := List.mem_map.2 ⟨_, hp', rfl⟩
          rw [outcomes_paths _ _ _ hlen] at hin
          obtain ⟨e, he, rfl⟩ := List.mem_map.1 hin
          exact ⟨e, he, hqp⟩
      obtain ⟨u, hu⟩ := Option.isSome_iff_exists.1 ((hs.find q).2 hmem.symm)
      have hql : q.length < L := by
        have := hq.length_le
        simp at this
        omega
      have hl := hs.vertex (by omega) hu
      rw [show L - q.length = (L - q.length - 1) + 1 by omega] at hl
      have hd : u.data.isSome := by
        obtain ⟨-, -, -, hl⟩ := hl
        rcases hl with ⟨-, hn, -⟩ | ⟨hd, -⟩
        · exact absurd ⟨p', hp', hqp⟩ hn
        · rw [hd]; rfl
      rw [c2 u hu hd] at hf
      cases hf
    · rw [c3 hne] at hf; cases hf

/-- C115, second part: whatever calls of the database failed during the `Set`s before (`as`), a `Set` that panics leaves
the stored root and the total proof as they were. -/
theorem C115_panic_keeps_total {E : Curve G1 G2 GT} (hE : E.Lawful) {env : Env} (henv : env.Lawful) {α : Zr} {F L : ℕ}
    {ls ls' : LiabilitySet G1 G2 GT} (h : NewSet E α F L ls) (as : List Attempt) (a : Attempt)
    (hids : ValidIds ls.tree.id2Path F L (tried (as ++ [a])))
    (ha : (ls.setsF E env as).2.setF E env a = (false, ls')) :
    ls'.proveTot E = (ls.setsF E env as).2.proveTot E ∧
      Verkle.Vertex.fromBytes E (ls'.s.db []) = Verkle.Vertex.fromBytes E ((ls.setsF E env as).2.s.db []) := by
  have hL := h.pp.depth
  rw [tried_concat] at hids
  split_ifs at hids with hn
  · rw [setF_neg _ _ _ _ hn, Prod.mk.injEq] at ha
    rw [← ha.2]
    exact ⟨rfl, rfl⟩
  · have hs := struggling hE henv h.tree.bound.le h.tree.pp h.tree.fanOut h.tree.root (by omega : 1 ≤ L) as
      fun e he => hids e (by simp [he])
    obtain ⟨p, h1, h2, h3⟩ := hids (a.id, a.amount) (by simp)
    obtain ⟨f1, f2, f3, -⟩ := setsF_fields E env ls as
    obtain ⟨-, -, -, hpp⟩ := setF_fields E env (ls.setsF E env as).2 a
    have := (hs.set hE henv h.tree.bound.le (f2.trans h.tree.pp) (f3.trans h.tree.fanOut) (by omega) a hn (p := p)
      (by rw [f1]; exact h1) h2 h3).2.1
    rw [ha] at this hpp
    obtain ⟨hl, -⟩ := this rfl
    exact ⟨proveTot_load E hpp hl, by rw [← load_fromBytes_eq, ← load_fromBytes_eq]; exact hl⟩

/-- C115, third part: whatever calls of the database failed before, a `Set` during which none fails returns. -/
theorem C115_retry_returns {E : Curve G1 G2 GT} (hE : E.Lawful) {env : Env} (henv : env.Lawful) {α : Zr} {F L : ℕ}
    {ls : LiabilitySet G1 G2 GT} (h : NewSet E α F L ls) (as : List Attempt) (id : Str) (n : ℤ) (hn : 0 ≤ n)
    (hids : ValidIds ls.tree.id2Path F L (tried as ++ [(id, n)])) :
    ∃ ls', (ls.setsF E env as).2.setF E env ⟨Faults.none, id, n⟩ = (true, ls') ∧
      (ls.setsF E env as).2.set E env id n = some ls' := by
  have hL := h.pp.depth
  have hs := struggling hE henv h.tree.bound.le h.tree.pp h.tree.fanOut h.tree.root (by omega : 1 ≤ L) as
    fun e he => hids e (by simp [he])
  obtain ⟨p, h1, h2, h3⟩ := hids (id, n) (by simp)
  obtain ⟨f1, f2, f3, -⟩ := setsF_fields E env ls as
  have := (hs.set hE henv h.tree.bound.le (f2.trans h.tree.pp) (f3.trans h.tree.fanOut) (by omega) ⟨Faults.none, id, n⟩
    (by simpa using hn) (p := p) (by rw [f1]; exact h1) h2 h3).2.2 rfl
  refine ⟨((ls.setsF E env as).2.setF E env ⟨Faults.none, id, n⟩).2, Prod.ext this rfl, ?_⟩
  rw [← setR_iff, ← C115_answering_database]
  exact Prod.ext this rfl

/-- C115, fourth part: `Get` of an identifier for which some `Set` has returned gives the amount of the last `Set`, whether
this returned or panicked. -/
theorem C115_get_last_try {E : Curve G1 G2 GT} (hE : E.Lawful) {env : Env} (henv : env.Lawful) {α : Zr} {F L : ℕ}
    {ls : LiabilitySet G1 G2 GT} (h : NewSet E α F L ls) (as : List Attempt) (hids : ValidIds ls.tree.id2Path F L (tried as))
    (id : Str) {p : List ℕ} (hp : ls.tree.id2Path id = some p)
    (hok : (p, true) ∈ outcomes ls.tree.id2Path as (ls.setsF E env as).1) :
    (ls.setsF E env as).2.get E env id = some (some (latest (byPath ls.tree.id2Path (tried as)) p)) := by
  have hL := h.pp.depth
  have hs := struggling hE henv h.tree.bound.le h.tree.pp h.tree.fanOut h.tree.root (by omega : 1 ≤ L) as hids
  obtain ⟨f1, -⟩ := setsF_fields E env ls as
  have hm : p ∈ (byPath ls.tree.id2Path (tried as)).map Prod.fst := by
    rw [← outcomes_paths _ _ _ (setsF_length E env ls as)]
    exact List.mem_map.2 ⟨_, hok, rfl⟩
  exact hs.get (by rw [f1]; exact hp) (byPath_length hids p (List.mem_toFinset.2 hm)).1 hok hm

/-- C115, fifth part: whatever calls of the database failed during `Set`s with valid identifiers, once the last `Set` of every
identifier has returned (`hs`), every stored vertex carries the sums of the last amounts, with matching commitments and
digests above the layer over the leaves; `Get` gives these amounts and `ProveTot` an accepted proof of their sum. -/
theorem C115_settled_exact {E : Curve G1 G2 GT} (hE : E.Lawful) {env : Env} (henv : env.Lawful) {α : Zr} {F L : ℕ}
    {ls ls' : LiabilitySet G1 G2 GT} (h : NewSet E α F L ls) (as : List Attempt) (oks : List Bool)
    (hrun : ls.setsF E env as = (oks, ls')) (hids : ValidIds ls.tree.id2Path F L (tried as)) (hne : tried as ≠ [])
    (hs : Settled (outcomes ls.tree.id2Path as oks)) :
    (∀ q, q.length < L → touched (byPath ls.tree.id2Path (tried as)) q →
      ∃ x, Verkle.Vertex.fromBytes E (ls'.s.db (keyOf q)) = some x ∧
        x.sum = intToZr (amountBelow (byPath ls.tree.id2Path (tried as)) q) ∧
        (∀ k : UInt16, touched (byPath ls.tree.id2Path (tried as)) (q ++ [k.toNat]) →
          x.values k = some (intToZr (amountBelow (byPath ls.tree.id2Path (tried as)) (q ++ [k.toNat])))) ∧
        (∀ k : UInt16, ¬ touched (byPath ls.tree.id2Path (tried as)) (q ++ [k.toNat]) → x.values k = none) ∧
        (q.length + 1 < L → ls.tree.PP.commit (valuesOf F x) = some x.V ∧
          (∃ W, x.W = some W ∧ ls.tree.PP.commit (digestsOf F x) = some W) ∧
          ∀ k : UInt16, touched (byPath ls.tree.id2Path (tried as)) (q ++ [k.toNat]) →
            ∃ y, Verkle.Vertex.fromBytes E (ls'.s.db (keyOf (q ++ [k.toNat]))) = some y ∧ x.digests k = y.digest E)) ∧
    (∀ id p, ls.tree.id2Path id = some p → p ∈ (byPath ls.tree.id2Path (tried as)).map Prod.fst →
      ls'.get E env id = some (some (latest (byPath ls.tree.id2Path (tried as)) p))) ∧
    (totalAmount (byPath ls.tree.id2Path (tried as)) < 2 ^ 63 →
      ∃ tp x, ls'.proveTot E = some tp ∧ tp.sum = totalAmount (byPath ls.tree.id2Path (tried as)) ∧
        Verkle.Vertex.fromBytes E (ls'.s.db []) = some x ∧ tp.verify E ls.pp x.V = some true) := by
  have hL := h.pp.depth
  have hst := struggling hE henv h.tree.bound.le h.tree.pp h.tree.fanOut h.tree.root (by omega : 1 ≤ L) as hids
  obtain ⟨f1, f2, f3, f4⟩ := setsF_fields E env ls as
  rw [hrun] at hst f1 f2 f3 f4
  have hbl : ∀ p ∈ (byPath ls.tree.id2Path (tried as)).map Prod.fst, p.length = L :=
    fun p hp => (byPath_length hids p (List.mem_toFinset.2 hp)).1
  have hbne : byPath ls.tree.id2Path (tried as) ≠ [] := by simpa [byPath] using hne
  obtain ⟨v, hv, hmem, hinv⟩ := hst.settled (fun e he => hbl _ (List.mem_map.2 ⟨e, he, rfl⟩)) hs hbne
  have hA : AmountsOf ls.tree.id2Path F L (touched (byPath ls.tree.id2Path (tried as)))
      (latest (byPath ls.tree.id2Path (tried as))) (tried as) := ⟨hids, fun _ => Iff.rfl, fun _ _ => rfl⟩
  have hT : ∀ p ∈ (byPath ls.tree.id2Path (tried as)).map Prod.fst, touched (byPath ls.tree.id2Path (tried as)) p := by
    intro p hp
    obtain ⟨e, he, rfl⟩ := List.mem_map.1 hp
    exact ⟨e, he, List.prefix_rfl⟩
  have hroot : touched (byPath ls.tree.id2Path (tried as)) [] := by
    obtain ⟨e, he⟩ := List.exists_mem_of_ne_nil _ hbne
    exact ⟨e, he, List.nil_prefix⟩
  refine ⟨?_, ?_, ?_⟩
  · intro q hq hTq
    have := stored_of_inv hE h.tree.bound.le hinv (fun _ _ hc => hc) hA q hq hTq
    rw [← h.tree.pp] at this
    exact this
  · intro id p hp hw
    exact get_of_mem hmem (fun q p => touched_prefix q p) ls' hv (by rw [f1]; exact hp) (hbl p hw) (hT p hw)
      (fun q hq hT => hinv.stored q hq hT)
  · intro htot
    obtain ⟨bf, vals, digs, k1, -⟩ := hinv.inner [] (by simp; omega) hroot
    obtain ⟨x, x1, x2⟩ := hinv.sum hA (L - 1) [] (by simp; omega) hroot (fun r hr => id)
    rw [k1, Option.some.injEq] at x1
    have hpos : ∀ e ∈ tried as, 0 ≤ e.2 := by
      intro e he
      unfold tried at he
      obtain ⟨a, -, ha⟩ := List.mem_filterMap.1 he
      split_ifs at ha with hn
      rw [Option.some.injEq] at ha
      rw [← ha]
      exact not_lt.1 hn
    rw [← f4]
    refine proveTot_of_inner hE (ls := ls') (f4 ▸ h.pp) h.tree.bound.le k1 ?_
      (Finset.sum_nonneg fun p _ => latest_nonneg (byPath_nonneg hpos) p) htot
    rw [← amountBelow_nil, ← x2, ← x1]
    rfl

/-- `000` is set to 10.  Then it is set to 31, and the root cannot be stored: the `Set` panics, `Get` gives 31, the total
proof is for 10.  Then it is set to 31 again: the total is 31. -/
example : ∃ (ls ls1 ls2 ls3 : LiabilitySet Zr Zr Zr) (f : Faults) (tp tp' : TotalProof Zr),
    NewSet toyCurve 2 3 3 ls ∧ ls.setF toyCurve toyEnv ⟨Faults.none, ['0', '0', '0'], 10⟩ = (true, ls1) ∧
    ls1.setF toyCurve toyEnv ⟨f, ['0', '0', '0'], 31⟩ = (false, ls2) ∧
    ls2.get toyCurve toyEnv ['0', '0', '0'] = some (some 31) ∧ ls2.proveTot toyCurve = some tp ∧ tp.sum = 10 ∧
    ls2.set toyCurve toyEnv ['0', '0', '0'] 31 = some ls3 ∧ ls3.proveTot toyCurve = some tp' ∧ tp'.sum = 31 := by
  obtain ⟨ls, h, ht⟩ := toy_set
  have hid : ls.tree.id2Path = toyPath := by rw [ht]; rfl
  have hp : ls.tree.id2Path ['0', '0', '0'] = some [0, 0, 0] := by rw [hid]; decide
  have hval : ∀ hist : List (Str × ℤ), (∀ e ∈ hist, e.1 = ['0', '0', '0']) → ValidIds ls.tree.id2Path 3 3 hist := by
    intro hist hh e he
    rw [hh e he]
    exact ⟨[0, 0, 0], hp, rfl, by decide⟩
  obtain ⟨f, hf⟩ : ∃ f : Faults, f = ⟨fun _ _ => false, fun _ => true⟩ := ⟨_, rfl⟩
  obtain ⟨a1, ha1⟩ : ∃ a : Attempt, a = ⟨Faults.none, ['0', '0', '0'], 10⟩ := ⟨_, rfl⟩
  obtain ⟨a2, ha2⟩ : ∃ a : Attempt, a = ⟨f, ['0', '0', '0'], 31⟩ := ⟨_, rfl⟩
  obtain ⟨a3, ha3⟩ : ∃ a : Attempt, a = ⟨Faults.none, ['0', '0', '0'], 31⟩ := ⟨_, rfl⟩
  have t1 : tried [a1] = [(['0', '0', '0'], 10)] := by rw [ha1]; rfl
  have t2 : tried [a1, a2] = [(['0', '0', '0'], 10), (['0', '0', '0'], 31)] := by rw [ha1, ha2]; rfl
  have t3 : tried [a1, a2, a3] = [(['0', '0', '0'], 10), (['0', '0', '0'], 31), (['0', '0', '0'], 31)] := by
    rw [ha1, ha2, ha3]; rfl
  have v1 : ValidIds ls.tree.id2Path 3 3 (tried [a1]) := hval _ (by rw [t1]; decide)
  have v2 : ValidIds ls.tree.id2Path 3 3 (tried [a1, a2]) := hval _ (by rw [t2]; decide)
  have v3 : ValidIds ls.tree.id2Path 3 3 (tried [a1, a2, a3]) := hval _ (by rw [t3]; decide)
  obtain ⟨ls1, r1, -⟩ := C115_retry_returns toyCurve_lawful toyEnv_lawful h [] ['0', '0', '0'] 10 (by norm_num)
    (hval _ (by decide))
  rw [← ha1] at r1
  have s1 : ls.setsF toyCurve toyEnv [a1] = ([true], ls1) := by
    rw [show [a1] = [] ++ [a1] from rfl, setsF_concat, r1]; rfl
  have r2 := C115_failing_call_panics toyCurve_lawful toyEnv_lawful h [a1] v1 a2 (p := [0, 0, 0]) (by rw [ha2]; exact hp) rfl
    [] 0 (by decide) (.inl (by rw [ha2, hf]))
  rw [s1] at r2
  obtain ⟨ls2, r2'⟩ : ∃ ls2, ls1.setF toyCurve toyEnv a2 = (false, ls2) := ⟨_, Prod.ext r2 rfl⟩
  have s2 : ls.setsF toyCurve toyEnv [a1, a2] = ([true, false], ls2) := by
    rw [show [a1, a2] = [a1] ++ [a2] from rfl, setsF_concat, s1]
    dsimp only
    rw [r2']; rfl
  obtain ⟨ls3, r3, r3'⟩ := C115_retry_returns toyCurve_lawful toyEnv_lawful h [a1, a2] ['0', '0', '0'] 31 (by norm_num)
    (hval _ (by rw [t2]; decide))
  rw [← ha3] at r3
  rw [s2] at r3 r3'
  have s3 : ls.setsF toyCurve toyEnv [a1, a2, a3] = ([true, false, true], ls3) := by
    rw [show [a1, a2, a3] = [a1, a2] ++ [a3] from rfl, setsF_concat, s2]
    dsimp only
    rw [r3]; rfl
  have o1 : outcomes ls.tree.id2Path [a1] [true] = [([0, 0, 0], true)] := by
    simp [outcomes, ha1, hp]
  have o2 : outcomes ls.tree.id2Path [a1, a2] [true, false] = [([0, 0, 0], true), ([0, 0, 0], false)] := by
    simp [outcomes, ha1, ha2, hp]
  have o3 : outcomes ls.tree.id2Path [a1, a2, a3] [true, false, true]
      = [([0, 0, 0], true), ([0, 0, 0], false), ([0, 0, 0], true)] := by
    simp [outcomes, ha1, ha2, ha3, hp]
  have b1 : byPath ls.tree.id2Path (tried [a1]) = [([0, 0, 0], 10)] := by simp [t1, byPath, hp]
  have b2 : byPath ls.tree.id2Path (tried [a1, a2]) = [([0, 0, 0], 10), ([0, 0, 0], 31)] := by simp [t2, byPath, hp]
  have b3 : byPath ls.tree.id2Path (tried [a1, a2, a3]) = [([0, 0, 0], 10), ([0, 0, 0], 31), ([0, 0, 0], 31)] := by
    simp [t3, byPath, hp]
  have hg := C115_get_last_try toyCurve_lawful toyEnv_lawful h [a1, a2] v2 ['0', '0', '0'] hp (by rw [s2, o2]; simp)
  rw [s2, b2] at hg
  obtain ⟨-, -, k1⟩ := C115_settled_exact toyCurve_lawful toyEnv_lawful h [a1] [true] s1 v1 (by rw [t1]; simp) (by
    rw [o1]; intro p; simp [lastPut])
  rw [b1] at k1
  obtain ⟨tp, -, k2, k3, -⟩ := k1 (by decide)
  obtain ⟨-, -, m1⟩ := C115_settled_exact toyCurve_lawful toyEnv_lawful h [a1, a2, a3] [true, false, true] s3 v3
    (by rw [t3]; simp) (by
      rw [o3]; intro p
      by_cases e : [0, 0, 0] = p <;> simp [lastPut, List.find?, e])
  rw [b3] at m1
  obtain ⟨tp', -, m2, m3, -⟩ := m1 (by decide)
  have hkeep := (C115_panic_keeps_total toyCurve_lawful toyEnv_lawful h [a1] a2 (ls' := ls2) v2 (by rw [s1]; exact r2')).1
  rw [s1] at hkeep
  refine ⟨ls, ls1, ls2, ls3, f, tp, tp', h, ha1 ▸ r1, ha2 ▸ r2', hg, hkeep.trans k2, k3, r3', m2, m3⟩

end PoL.Props
