import Verif.Proofs.WritersEnd
import Verif.Props.Concurrent

/-!
# C109: several `Set` calls at once

Identifiers that were set before are set again by calls that run at the same time.
-/

set_option linter.unusedSectionVars false

namespace PoL.Props
open Spec BP PP Verkle Pol

variable {G1 G2 GT : Type} [AddCommGroup G1] [Module Zr G1] [AddCommGroup G2] [Module Zr G2]
  [AddCommGroup GT] [Module Zr GT] [DecidableEq G1] [DecidableEq GT]

/-- C109, what holds of it: if every call of the tree's callback has written before the next one reads, then in whatever
order the calls of different `Set`s come, all `Set`s return, and the vertices stored afterwards carry the sums of the
amounts last set, with matching commitments and digests above the layer over the leaves.  Missing: callbacks that overlap,
see `C109_violated`. -/
theorem C109_stored_partial {E : Curve G1 G2 GT} (hE : E.Lawful) {env : Env} (henv : env.Lawful) {α : Zr} {F L : ℕ}
    {ls ls1 : LiabilitySet G1 G2 GT} (h : NewSet E α F L ls) (hist news : List (Str × ℤ))
    (hids : ValidIds ls.tree.id2Path F L (hist ++ news)) (h1 : ls.sets E env hist = some ls1)
    (hnew : ∀ e ∈ byPath ls.tree.id2Path news, e.1 ∈ (byPath ls.tree.id2Path hist).map Prod.fst)
    (hnd : ((byPath ls.tree.id2Path news).map Prod.fst).Nodup) {v : Sparse.Vertex Data} (hv : ls1.tree.root = some v)
    (turns : List Turn) (hturns : Interleaving news.length L turns) :
    ∃ r, (Running.start (byPath ls.tree.id2Path news) v ls1.s).run E ls.tree.PP env F (eventsOf turns) = some r ∧ r.ended ∧
      (∀ q, q.length < L → touched (byPath ls.tree.id2Path hist) q → ∃ x, Verkle.Vertex.fromBytes E (r.s.db (keyOf q)) = some x ∧
        x.sum = intToZr (amountBelow (byPath ls.tree.id2Path (hist ++ news)) q) ∧
        (∀ k : UInt16, touched (byPath ls.tree.id2Path hist) (q ++ [k.toNat]) →
          x.values k = some (intToZr (amountBelow (byPath ls.tree.id2Path (hist ++ news)) (q ++ [k.toNat])))) ∧
        (∀ k : UInt16, ¬ touched (byPath ls.tree.id2Path hist) (q ++ [k.toNat]) → x.values k = none) ∧
        (q.length + 1 < L → ls.tree.PP.commit (valuesOf F x) = some x.V ∧
          (∃ W, x.W = some W ∧ ls.tree.PP.commit (digestsOf F x) = some W) ∧
          ∀ k : UInt16, touched (byPath ls.tree.id2Path hist) (q ++ [k.toNat]) →
            ∃ y, Verkle.Vertex.fromBytes E (r.s.db (keyOf (q ++ [k.toNat]))) = some y ∧ x.digests k = y.digest E)) := by
  have hL := h.pp.depth
  obtain ⟨r, A, c1, c2, c3, c4, -⟩ := run_turns hE henv h hist news hids h1 hnew hnd hv turns L le_rfl hturns.1 hturns.2
  have hex : ∀ c, c ≠ [] → ¬ Fresher L r.writers c := by
    rintro c hc ⟨w, hw, rfl⟩
    rw [c4] at hw
    obtain ⟨e, -, rfl⟩ := List.mem_map.1 hw
    simp at hc
  refine ⟨r, c1, fun w hw => ?_, fun q hq hT => ?_⟩
  · have hwl := (c2.writer w hw).2.1
    rw [c4] at hw
    obtain ⟨e, -, rfl⟩ := List.mem_map.1 hw
    exact ⟨rfl, hwl.symm, rfl⟩
  · have := stored_of_inv hE h.tree.bound.le c2.inv hex c3 q hq hT
    rw [← h.tree.pp] at this
    exact this

/-- C109, what holds of it for the API: after such `Set`s `Get` gives the amounts last set, and `ProveTot` an accepted proof of
their sum. -/
theorem C109_get_and_total_partial {E : Curve G1 G2 GT} (hE : E.Lawful) {env : Env} (henv : env.Lawful) {α : Zr} {F L : ℕ}
    {ls ls1 : LiabilitySet G1 G2 GT} (h : NewSet E α F L ls) (hist news : List (Str × ℤ))
    (hids : ValidIds ls.tree.id2Path F L (hist ++ news)) (h1 : ls.sets E env hist = some ls1)
    (hpos : ∀ e ∈ news, 0 ≤ e.2)
    (hnew : ∀ e ∈ byPath ls.tree.id2Path news, e.1 ∈ (byPath ls.tree.id2Path hist).map Prod.fst)
    (hnd : ((byPath ls.tree.id2Path news).map Prod.fst).Nodup) {v : Sparse.Vertex Data} (hv : ls1.tree.root = some v)
    (htot : totalAmount (byPath ls.tree.id2Path (hist ++ news)) < 2 ^ 63)
    (turns : List Turn) (hturns : Interleaving news.length L turns) :
    ∃ r ls2, (Running.start (byPath ls.tree.id2Path news) v ls1.s).run E ls.tree.PP env F (eventsOf turns) = some r ∧ r.ended ∧
      ls2 = { ls1 with tree := { ls1.tree with root := some r.root }, s := r.s } ∧
      (∀ id p, ls.tree.id2Path id = some p → p ∈ (byPath ls.tree.id2Path hist).map Prod.fst →
        ls2.get E env id = some (some (latest (byPath ls.tree.id2Path (hist ++ news)) p))) ∧
      ∃ tp x, ls2.proveTot E = some tp ∧ tp.sum = totalAmount (byPath ls.tree.id2Path (hist ++ news)) ∧
        Verkle.Vertex.fromBytes E (ls2.s.db []) = some x ∧ tp.verify E ls.pp x.V = some true := by
  have hL := h.pp.depth
  obtain ⟨r, A, c1, c2, c3, c4, -⟩ := run_turns hE henv h hist news hids h1 hnew hnd hv turns L le_rfl hturns.1 hturns.2
  obtain ⟨hn, t, s, hputs, rfl⟩ := (sets_iff E env hist ls ls1).1 h1
  have hex : ∀ c, c ≠ [] → ¬ Fresher L r.writers c := by
    rintro c hc ⟨w, hw, rfl⟩
    rw [c4] at hw
    obtain ⟨e, -, rfl⟩ := List.mem_map.1 hw
    simp at hc
  have hid : t.id2Path = ls.tree.id2Path := by
    obtain ⟨t1, s1, e1, e2, -⟩ := puts_good hE henv α F h.tree.bound.le ls.tree h.tree.pp h.tree.fanOut h.tree.root L (by omega)
      hist ls.s (fun e he => hids e (by simp [he]))
    rw [hputs, Option.some.injEq, Prod.mk.injEq] at e1
    rw [e1.1, e2]
  refine ⟨r, _, c1, fun w hw => ?_, rfl, fun id p hp hw => ?_, ?_⟩
  · have hwl := (c2.writer w hw).2.1
    rw [c4] at hw
    obtain ⟨e, -, rfl⟩ := List.mem_map.1 hw
    exact ⟨rfl, hwl.symm, rfl⟩
  · have hpL := (byPath_length (fun e he => hids e (by simp [he])) p (List.mem_toFinset.2 hw)).1
    have hT : touched (byPath ls.tree.id2Path hist) p := by
      obtain ⟨e, he, rfl⟩ := List.mem_map.1 hw
      exact ⟨e, he, List.prefix_rfl⟩
    rw [get_of_mem c2.mem (fun q p => touched_prefix q p) _ rfl (by rw [← hp, ← hid]) hpL hT
      (fun q hq hT => c2.inv.stored q hq hT), c3.amount p hpL]
  · have hroot : touched (byPath ls.tree.id2Path hist) [] := by
      cases hist with
      | nil =>
        rw [vputs_nil, Option.some.injEq, Prod.mk.injEq] at hputs
        rw [← hputs.1, h.tree.root] at hv
        simp at hv
      | cons e hist => exact ⟨_, List.mem_cons_self, List.nil_prefix⟩
    obtain ⟨bf, vals, digs, k1, -⟩ := c2.inv.inner [] (by simp; omega) hroot
    obtain ⟨x, x1, x2⟩ := c2.inv.sum c3 (L - 1) [] (by simp; omega) hroot (fun r hr => hex _ (by simpa using hr))
    rw [k1, Option.some.injEq] at x1
    have hnn : ∀ e ∈ hist ++ news, 0 ≤ e.2 := by
      intro e he
      rcases List.mem_append.1 he with he | he
      · exact hn e he
      · exact hpos e he
    refine proveTot_of_inner hE (ls := { ls with tree := { t with root := some r.root }, s := r.s }) h.pp h.tree.bound.le k1 ?_ (Finset.sum_nonneg fun p _ => latest_nonneg (byPath_nonneg hnn) p) htot
    rw [← amountBelow_nil, ← x2, ← x1]
    rfl

/-- C109 is violated: two `Set`s of identifiers whose paths part at the root.  If both have come to the root and both read it
before one of them writes it, both return and `Get` gives both amounts, but the first one is missing in the stored root: `ProveTot`
states the total that a history without the first `Set` has, and its proof is accepted. -/
theorem C109_violated {E : Curve G1 G2 GT} (hE : E.Lawful) {env : Env} (henv : env.Lawful) {α : Zr} {F L : ℕ}
    {ls ls1 : LiabilitySet G1 G2 GT} (h : NewSet E α F L ls) (hist : List (Str × ℤ)) (id₁ id₂ : Str) (n₁ n₂ : ℤ)
    (hids : ValidIds ls.tree.id2Path F L (hist ++ [(id₁, n₁), (id₂, n₂)])) (h1 : ls.sets E env hist = some ls1)
    (hpos : 0 ≤ n₁ ∧ 0 ≤ n₂) (p₁ p₂ : List ℕ) (hp₁ : ls.tree.id2Path id₁ = some p₁) (hp₂ : ls.tree.id2Path id₂ = some p₂)
    (hw₁ : p₁ ∈ (byPath ls.tree.id2Path hist).map Prod.fst) (hw₂ : p₂ ∈ (byPath ls.tree.id2Path hist).map Prod.fst)
    (hpart : p₁.head? ≠ p₂.head?) {v : Sparse.Vertex Data} (hv : ls1.tree.root = some v)
    (htot : totalAmount (byPath ls.tree.id2Path (hist ++ [(id₂, n₂)])) < 2 ^ 63)
    (turns : List Turn) (hin : ∀ t ∈ turns, t.writer < 2)
    (hturns : ∀ i < 2, turns.filter (fun t => decide (t.writer = i)) = .sets i :: List.replicate (L - 1) (.calls i)) :
    ∃ r ls2, (Running.start [(p₁, n₁), (p₂, n₂)] v ls1.s).run E ls.tree.PP env F
        (eventsOf turns ++ [.reads 0, .reads 1, .writes 0, .writes 1]) = some r ∧ r.ended ∧
      ls2 = { ls1 with tree := { ls1.tree with root := some r.root }, s := r.s } ∧
      ls2.get E env id₁ = some (some n₁) ∧ ls2.get E env id₂ = some (some n₂) ∧
      ∃ tp x, ls2.proveTot E = some tp ∧ tp.sum = totalAmount (byPath ls.tree.id2Path (hist ++ [(id₂, n₂)])) ∧
        tp.sum = totalAmount (byPath ls.tree.id2Path (hist ++ [(id₁, n₁), (id₂, n₂)]))
          - (n₁ - latest (byPath ls.tree.id2Path hist) p₁) ∧
        Verkle.Vertex.fromBytes E (ls2.s.db []) = some x ∧ tp.verify E ls.pp x.V = some true := by
  have hL := h.pp.depth
  have hFb := h.tree.bound
  have hids1 : ValidIds ls.tree.id2Path F L hist := fun e he => hids e (by simp [he])
  obtain ⟨hl₁, hlt₁⟩ := byPath_length hids1 p₁ (List.mem_toFinset.2 hw₁)
  obtain ⟨hl₂, hlt₂⟩ := byPath_length hids1 p₂ (List.mem_toFinset.2 hw₂)
  have hne : p₁ ≠ p₂ := fun hc => hpart (by rw [hc])
  have hbn : byPath ls.tree.id2Path [(id₁, n₁), (id₂, n₂)] = [(p₁, n₁), (p₂, n₂)] := by simp [byPath, hp₁, hp₂]
  obtain ⟨r, A, c1, c2, c3, c4, c5⟩ := run_turns hE henv h hist [(id₁, n₁), (id₂, n₂)] hids h1
    (by rw [hbn]; intro e he; simp at he; rcases he with rfl | rfl <;> assumption)
    (by rw [hbn]; simpa using hne) hv turns (L - 1) (by omega) hin hturns
  rw [hbn] at c1 c4
  obtain ⟨hn, t, s, hputs, rfl⟩ := (sets_iff E env hist ls ls1).1 h1
  have hid : t.id2Path = ls.tree.id2Path := by
    obtain ⟨t1, s1, e1, e2, -⟩ := puts_good hE henv α F h.tree.bound.le ls.tree h.tree.pp h.tree.fanOut h.tree.root L (by omega)
      hist ls.s hids1
    rw [hputs, Option.some.injEq, Prod.mk.injEq] at e1
    rw [e1.1, e2]
  have hT : ∀ p, p ∈ (byPath ls.tree.id2Path hist).map Prod.fst → touched (byPath ls.tree.id2Path hist) p := by
    intro p hw
    obtain ⟨e, he, rfl⟩ := List.mem_map.1 hw
    exact ⟨e, he, List.prefix_rfl⟩
  have hroot : touched (byPath ls.tree.id2Path hist) [] := touched_prefix _ _ List.nil_prefix (hT p₁ hw₁)
  match p₁, p₂, hl₁, hl₂ with
  | [], _, hl, _ => simp at hl; omega
  | _, [], _, hl => simp at hl; omega
  | a₁ :: q₁, a₂ :: q₂, hl₁, hl₂ =>
  have ha : a₁ ≠ a₂ := by simpa using hpart
  have hT₁ : touched (byPath ls.tree.id2Path hist) ([] ++ [a₁]) := touched_prefix _ (a₁ :: q₁) ⟨q₁, rfl⟩ (hT _ hw₁)
  have hT₂ : touched (byPath ls.tree.id2Path hist) ([] ++ [a₂]) := touched_prefix _ (a₂ :: q₂) ⟨q₂, rfl⟩ (hT _ hw₂)
  obtain ⟨bf, vals, digs, k1, k2, k3, -⟩ := c2.inv.inner [] (by simp; omega) hroot
  have hvd : ∀ i, (vals i).isSome = (digs i).isSome := fun j => Bool.eq_iff_iff.2 ((k2 j).trans (k3 j).symm)
  obtain ⟨u, hu⟩ := c2.mem.there [] hroot
  obtain ⟨hukey, -⟩ := c2.mem.inner [] u (by simp; omega) hu
  obtain ⟨y₁, hy₁⟩ := c2.inv.stored ([] ++ [a₁]) (by simp; omega) hT₁
  obtain ⟨y₂, hy₂, hy₂s⟩ := c2.inv.sum c3 (L - 2) ([] ++ [a₂]) (by simp; omega) hT₂ (by
    rintro rr hr ⟨w, hw, hc⟩
    rw [c4] at hw
    have hlen := congrArg List.length hc
    have hwd : w.done = L - 1 := by
      obtain ⟨e, -, rfl⟩ := List.mem_map.1 hw
      rfl
    have : 0 < rr.length := List.length_pos_of_ne_nil hr
    rw [hwd, List.length_take] at hlen
    simp at hlen
    omega)
  -- the two callbacks read
  obtain ⟨raw₁, ra₁, hup₁⟩ := call_inner hE env hFb.le c2.mem (by simp; omega) hT₁ hu (s := r.s) k1 hvd hy₁
  let x₁ := innerVertex E α F bf (Function.update vals a₁ (some y₁.sum)) (Function.update digs a₁ (some (dig E y₁)))
  have s1 := step_reads (F := F) (PP := newPublicParams E α (F + 2)) (env := env) (E := E) (r := r) (i := 0)
    (w := ⟨a₁ :: q₁, n₁, true, L - 1, none⟩) (by rw [c4]; rfl) rfl rfl (by show L - 1 < (a₁ :: q₁).length; omega) (q := []) rfl
    (by simp at hl₁; show q₁.length = L - 1; omega) hu hukey ra₁ (x := x₁) (by
      rw [show decide ((⟨a₁ :: q₁, n₁, true, L - 1, none⟩ : Writer).done = 0) = false by
        rw [decide_eq_false_iff_not]; show ¬ L - 1 = 0; omega]
      exact hup₁)
  obtain ⟨r2, hr2⟩ : ∃ r2 : Running, r2 = { r with
    writers := r.writers.set 0 { (⟨a₁ :: q₁, n₁, true, L - 1, none⟩ : Writer) with
      pending := some (keyOf [], (store E env (keyOf []) x₁ r.s).db (keyOf [])) }
    s := { r.s with tick := (store E env (keyOf []) x₁ r.s).tick } } := ⟨_, rfl⟩
  rw [← hr2] at s1
  have hr2db : r2.s.db = r.s.db := by rw [hr2]
  have hr2root : r2.root = r.root := by rw [hr2]
  have hr2w : r2.writers = [⟨a₁ :: q₁, n₁, true, L - 1, some (keyOf [], (store E env (keyOf []) x₁ r.s).db (keyOf []))⟩,
      ⟨a₂ :: q₂, n₂, true, L - 1, none⟩] := by rw [hr2, c4]; rfl
  obtain ⟨raw₂, ra₂, hup₂⟩ := call_inner hE env hFb.le c2.mem (by simp; omega) hT₂ hu (s := r2.s)
    (by rw [hr2db]; exact k1) hvd (by rw [hr2db]; exact hy₂)
  obtain ⟨x₂, hx₂⟩ : ∃ x₂, x₂ = innerVertex E α F bf (Function.update vals a₂ (some y₂.sum))
    (Function.update digs a₂ (some (dig E y₂))) := ⟨_, rfl⟩
  rw [← hx₂] at hup₂
  have s2 := step_reads (F := F) (PP := newPublicParams E α (F + 2)) (env := env) (E := E) (r := r2) (i := 1)
    (w := ⟨a₂ :: q₂, n₂, true, L - 1, none⟩) (by rw [hr2w]; rfl) rfl rfl (by show L - 1 < (a₂ :: q₂).length; omega) (q := []) rfl
    (by simp at hl₂; show q₂.length = L - 1; omega) (by rw [hr2root]; exact hu) hukey ra₂ (x := x₂) (by
      rw [show decide ((⟨a₂ :: q₂, n₂, true, L - 1, none⟩ : Writer).done = 0) = false by
        rw [decide_eq_false_iff_not]; show ¬ L - 1 = 0; omega]
      exact hup₂)
  obtain ⟨r3, hr3⟩ : ∃ r3 : Running, r3 = { r2 with
    writers := r2.writers.set 1 { (⟨a₂ :: q₂, n₂, true, L - 1, none⟩ : Writer) with
      pending := some (keyOf [], (store E env (keyOf []) x₂ r2.s).db (keyOf [])) }
    s := { r2.s with tick := (store E env (keyOf []) x₂ r2.s).tick } } := ⟨_, rfl⟩
  rw [← hr3] at s2
  have hr3db : r3.s.db = r.s.db := by rw [hr3, ← hr2db]
  have hr3root : r3.root = r.root := by rw [hr3, ← hr2root]
  have hr3w : r3.writers = [⟨a₁ :: q₁, n₁, true, L - 1, some (keyOf [], (store E env (keyOf []) x₁ r.s).db (keyOf []))⟩,
      ⟨a₂ :: q₂, n₂, true, L - 1, some (keyOf [], (store E env (keyOf []) x₂ r2.s).db (keyOf []))⟩] := by
    rw [hr3, hr2w]; rfl
  -- and write
  have s3 := step_writes (F := F) (PP := newPublicParams E α (F + 2)) (env := env) (E := E) (r := r3) (i := 0)
    (w := ⟨a₁ :: q₁, n₁, true, L - 1, some (keyOf [], (store E env (keyOf []) x₁ r.s).db (keyOf []))⟩)
    (by rw [hr3w]; rfl) rfl
  obtain ⟨r4, hr4⟩ : ∃ r4 : Running, r4 = { r3 with
    writers := r3.writers.set 0 ⟨a₁ :: q₁, n₁, true, L - 1 + 1, none⟩
    s := { r3.s with db := r3.s.db.put (keyOf []) ((store E env (keyOf []) x₁ r.s).db (keyOf [])) } } := ⟨_, rfl⟩
  have s3' : r3.step E (newPublicParams E α (F + 2)) env F (.writes 0) = some r4 := by rw [hr4]; exact s3
  have hr4w : r4.writers = [⟨a₁ :: q₁, n₁, true, L - 1 + 1, none⟩,
      ⟨a₂ :: q₂, n₂, true, L - 1, some (keyOf [], (store E env (keyOf []) x₂ r2.s).db (keyOf []))⟩] := by
    rw [hr4, hr3w]; rfl
  have s4 := step_writes (F := F) (PP := newPublicParams E α (F + 2)) (env := env) (E := E) (r := r4) (i := 1)
    (w := ⟨a₂ :: q₂, n₂, true, L - 1, some (keyOf [], (store E env (keyOf []) x₂ r2.s).db (keyOf []))⟩)
    (by rw [hr4w]; rfl) rfl
  obtain ⟨r5, hr5⟩ : ∃ r5 : Running, r5 = { r4 with
    writers := r4.writers.set 1 ⟨a₂ :: q₂, n₂, true, L - 1 + 1, none⟩
    s := { r4.s with db := r4.s.db.put (keyOf []) ((store E env (keyOf []) x₂ r2.s).db (keyOf [])) } } := ⟨_, rfl⟩
  have s4' : r4.step E (newPublicParams E α (F + 2)) env F (.writes 1) = some r5 := by rw [hr5]; exact s4
  have hr5w : r5.writers = [⟨a₁ :: q₁, n₁, true, L - 1 + 1, none⟩, ⟨a₂ :: q₂, n₂, true, L - 1 + 1, none⟩] := by
    rw [hr5, hr4w]; rfl
  have hr5root : r5.root = r.root := by rw [hr5, ← hr3root, hr4]
  have hload : load E r5.s.db (keyOf []) = some x₂ := by
    rw [← load_store_self hE henv (keyOf []) x₂ r2.s]
    apply load_congr
    rw [hr5]
    simp [Db.put]
  have hloads : ∀ q, q ≠ [] → load E r5.s.db (keyOf q) = load E r.s.db (keyOf q) := by
    intro q hq
    apply load_congr
    have hk : keyOf q ≠ keyOf [] := fun hc => hq (keyOf_injective hc)
    rw [hr5, hr4, ← hr3db]
    simp [Db.put, hk]
  -- the root as it was before
  have hrootkey : r.s.db (keyOf []) = s.db (keyOf []) := by
    apply c5
    intro w hw d hd hc
    have hwl := (c2.writer w hw).2.1
    rw [c4] at hw
    obtain ⟨e, he, rfl⟩ := List.mem_map.1 hw
    have hlen := congrArg List.length hc
    simp only [List.length_nil, List.length_take] at hlen
    dsimp only at hwl hd
    omega
  obtain ⟨x, hx, hxs, hxv, -⟩ := C39_stored_sums hE henv h.tree (by omega) hist hids1 hputs [] (by simp; omega) hroot
  rw [← hrootkey, load_fromBytes k1, Option.some.injEq] at hx
  subst hx
  have ha₂ : a₂ < F := hlt₂ a₂ (by simp)
  have hva : vals a₂ = some (intToZr (amountBelow (byPath ls.tree.id2Path hist) [a₂])) := by
    have := hxv (UInt16.ofNat a₂) (by rw [toNat_ofNat16 (by omega)]; exact hT₂)
    rw [toNat_ofNat16 (by omega)] at this
    have e : (innerVertex E α F bf vals digs).values = mapBelow F vals := rfl
    rw [e, mapBelow_ofNat _ (by omega), if_pos ha₂] at this
    exact this
  -- amounts
  have hb2 : byPath ls.tree.id2Path (hist ++ [(id₂, n₂)]) = byPath ls.tree.id2Path hist ++ [(a₂ :: q₂, n₂)] := by
    simp [byPath, hp₂]
  have hb12 : byPath ls.tree.id2Path (hist ++ [(id₁, n₁), (id₂, n₂)])
      = byPath ls.tree.id2Path hist ++ [(a₁ :: q₁, n₁)] ++ [(a₂ :: q₂, n₂)] := by
    simp [byPath, hp₁, hp₂]
  have hlat : latest (byPath ls.tree.id2Path hist ++ [(a₁ :: q₁, n₁)]) (a₂ :: q₂) = latest (byPath ls.tree.id2Path hist) (a₂ :: q₂) := by
    rw [latest_snoc, if_neg hne]
  have hy₂a : amountBelow (byPath ls.tree.id2Path (hist ++ [(id₁, n₁), (id₂, n₂)])) [a₂]
      = amountBelow (byPath ls.tree.id2Path hist) [a₂] + (n₂ - latest (byPath ls.tree.id2Path hist) (a₂ :: q₂)) := by
    rw [hb12, amountBelow_concat, amountBelow_concat, hlat, if_neg (by simpa using ha.symm), if_pos (by simp), add_zero]
  have ht2 : totalAmount (byPath ls.tree.id2Path (hist ++ [(id₂, n₂)]))
      = amountBelow (byPath ls.tree.id2Path hist) [] + (n₂ - latest (byPath ls.tree.id2Path hist) (a₂ :: q₂)) := by
    rw [← amountBelow_nil, hb2, amountBelow_concat, if_pos (by simp)]
  have ht12 : totalAmount (byPath ls.tree.id2Path (hist ++ [(id₁, n₁), (id₂, n₂)]))
      = amountBelow (byPath ls.tree.id2Path hist) [] + (n₁ - latest (byPath ls.tree.id2Path hist) (a₁ :: q₁))
        + (n₂ - latest (byPath ls.tree.id2Path hist) (a₂ :: q₂)) := by
    rw [← amountBelow_nil, hb12, amountBelow_concat, amountBelow_concat, hlat, if_pos (by simp), if_pos (by simp)]
  have hsum : ∑ i ∈ Finset.range F, ((Function.update vals a₂ (some y₂.sum)) i).getD 0
      = intToZr (totalAmount (byPath ls.tree.id2Path (hist ++ [(id₂, n₂)]))) := by
    have hs0 : ∑ i ∈ Finset.range F, (vals i).getD 0 = intToZr (amountBelow (byPath ls.tree.id2Path hist) []) := hxs
    rw [sum_update F a₂ ha₂, hs0, hva, hy₂s, List.nil_append, hy₂a, ht2]
    simp only [intToZr, Option.getD_some]
    push_cast
    ring
  have hnn : ∀ e ∈ hist ++ [(id₂, n₂)], 0 ≤ e.2 := by
    intro e he
    rcases List.mem_append.1 he with he | he
    · exact hn e he
    · rw [List.mem_singleton] at he; rw [he]; exact hpos.2
  have hst : ∀ q, q.length < L → touched (byPath ls.tree.id2Path hist) q → ∃ x, load E r5.s.db (keyOf q) = some x := by
    intro q hq hTq
    by_cases hq0 : q = []
    · subst hq0; exact ⟨_, hload⟩
    · rw [hloads q hq0]; exact c2.inv.stored q hq hTq
  have hA₁ : A (a₁ :: q₁) = n₁ := by
    rw [c3.amount _ hl₁, hb12, latest_snoc, latest_snoc, if_neg (Ne.symm hne), if_pos rfl]
  have hA₂ : A (a₂ :: q₂) = n₂ := by
    rw [c3.amount _ hl₂, hb12, latest_snoc, if_pos rfl]
  refine ⟨r5, _, ?_, ?_, rfl, ?_, ?_, ?_⟩
  · rw [run_append, c1, Option.bind_some, h.tree.pp, run_cons, s1, Option.bind_some, run_cons, s2, Option.bind_some, run_cons, s3',
      Option.bind_some, run_cons, s4', Option.bind_some]
    rfl
  · intro w hw
    rw [hr5w] at hw
    simp only [List.mem_cons, List.not_mem_nil, or_false] at hw
    rcases hw with rfl | rfl
    · exact ⟨rfl, by dsimp only; omega, rfl⟩
    · exact ⟨rfl, by dsimp only; omega, rfl⟩
  · rw [get_of_mem (hr5root ▸ c2.mem) (fun q p => touched_prefix q p) _ rfl (by rw [← hp₁, ← hid]) hl₁ (hT _ hw₁) hst, hA₁]
  · rw [get_of_mem (hr5root ▸ c2.mem) (fun q p => touched_prefix q p) _ rfl (by rw [← hp₂, ← hid]) hl₂ (hT _ hw₂) hst, hA₂]
  · have hload' : load E r5.s.db [] = some (innerVertex E α F bf (Function.update vals a₂ (some y₂.sum))
        (Function.update digs a₂ (some (dig E y₂)))) := by rw [← hx₂]; exact hload
    obtain ⟨tp, x, t1, t2, t3, t4⟩ := proveTot_of_inner hE
      (ls := { ls with tree := { t with root := some r5.root }, s := r5.s }) h.pp h.tree.bound.le hload' hsum
      (Finset.sum_nonneg fun p _ => latest_nonneg (byPath_nonneg hnn) p) htot
    exact ⟨tp, x, t1, t2, by rw [t2, ht2, ht12]; ring, t3, t4⟩

/-- `000` and `100` are set from 10 and 5 to 31 and 7, the callbacks of the two `Set`s taking turns. -/
example : ∃ (ls ls1 : LiabilitySet Zr Zr Zr) (v : Sparse.Vertex Data) (r : Running) (tp : TotalProof Zr),
    NewSet toyCurve 2 3 3 ls ∧ ls.sets toyCurve toyEnv [(['0', '0', '0'], 10), (['1', '0', '0'], 5)] = some ls1 ∧
    ls1.tree.root = some v ∧
    (Running.start [([0, 0, 0], 31), ([1, 0, 0], 7)] v ls1.s).run toyCurve ls.tree.PP toyEnv 3
      (eventsOf [.sets 0, .calls 0, .sets 1, .calls 0, .calls 1, .calls 1, .calls 1, .calls 0]) = some r ∧
    ({ ls1 with tree := { ls1.tree with root := some r.root }, s := r.s } : LiabilitySet Zr Zr Zr).proveTot toyCurve = some tp ∧
    tp.sum = 38 := by
  obtain ⟨ls, h, ht⟩ := toy_set
  have hid : ls.tree.id2Path = toyPath := by rw [ht]; rfl
  have hids : ValidIds ls.tree.id2Path 3 3
      ([(['0', '0', '0'], 10), (['1', '0', '0'], 5)] ++ [(['0', '0', '0'], 31), (['1', '0', '0'], 7)]) := by
    rw [hid]; exact toyPath_valid _ (by decide)
  have hpos : ∀ e ∈ [(['0', '0', '0'], (10 : ℤ)), (['1', '0', '0'], 5)], 0 ≤ e.2 := by decide
  obtain ⟨ls1, h1⟩ := C43_sets_return toyCurve_lawful toyEnv_lawful h _ (fun e he => hids e (by simp at he ⊢; tauto)) hpos
  obtain ⟨-, t, s, hputs, rfl⟩ := (sets_iff toyCurve toyEnv _ ls ls1).1 h1
  obtain ⟨v, x, hv, -⟩ := root_data toyCurve_lawful toyEnv_lawful h.tree (by norm_num) _ (by simp)
    (fun e he => hids e (by simp at he ⊢; tauto)) hputs
  have hb : byPath ls.tree.id2Path [(['0', '0', '0'], 31), (['1', '0', '0'], 7)] = [([0, 0, 0], 31), ([1, 0, 0], 7)] := by
    rw [hid]; rfl
  have ht : totalAmount (byPath ls.tree.id2Path
      ([(['0', '0', '0'], 10), (['1', '0', '0'], 5)] ++ [(['0', '0', '0'], 31), (['1', '0', '0'], 7)])) = 38 := by
    rw [hid]; decide
  obtain ⟨r, ls2, c1, -, rfl, -, tp, y, c2, c3, -⟩ := C109_get_and_total_partial toyCurve_lawful toyEnv_lawful h
    [(['0', '0', '0'], 10), (['1', '0', '0'], 5)] [(['0', '0', '0'], 31), (['1', '0', '0'], 7)] hids h1 (by decide)
    (by rw [hid]; decide) (by rw [hid]; decide) hv (by rw [ht]; norm_num)
    [.sets 0, .calls 0, .sets 1, .calls 0, .calls 1, .calls 1, .calls 1, .calls 0]
    ⟨by intro t ht; simp at ht; rcases ht with rfl | rfl | rfl | rfl | rfl | rfl <;> decide, by
      intro i hi
      have : i = 0 ∨ i = 1 := by simp at hi; omega
      rcases this with rfl | rfl <;> rfl⟩
  rw [hb] at c1
  exact ⟨ls, _, v, r, tp, h, h1, hv, c1, c2, by rw [c3, ht]⟩

/-- The same, both root callbacks reading before they write: the amount 10 of `000` stays in the total. -/
example : ∃ (ls ls1 : LiabilitySet Zr Zr Zr) (v : Sparse.Vertex Data) (r : Running) (tp : TotalProof Zr),
    NewSet toyCurve 2 3 3 ls ∧ ls.sets toyCurve toyEnv [(['0', '0', '0'], 10), (['1', '0', '0'], 5)] = some ls1 ∧
    ls1.tree.root = some v ∧
    (Running.start [([0, 0, 0], 31), ([1, 0, 0], 7)] v ls1.s).run toyCurve ls.tree.PP toyEnv 3
      (eventsOf [.sets 0, .calls 0, .sets 1, .calls 0, .calls 1, .calls 1] ++ [.reads 0, .reads 1, .writes 0, .writes 1]) = some r ∧
    ({ ls1 with tree := { ls1.tree with root := some r.root }, s := r.s } : LiabilitySet Zr Zr Zr).proveTot toyCurve = some tp ∧
    tp.sum = 17 := by
  obtain ⟨ls, h, ht⟩ := toy_set
  have hid : ls.tree.id2Path = toyPath := by rw [ht]; rfl
  have hids : ValidIds ls.tree.id2Path 3 3
      ([(['0', '0', '0'], 10), (['1', '0', '0'], 5)] ++ [(['0', '0', '0'], 31), (['1', '0', '0'], 7)]) := by
    rw [hid]; exact toyPath_valid _ (by decide)
  have hpos : ∀ e ∈ [(['0', '0', '0'], (10 : ℤ)), (['1', '0', '0'], 5)], 0 ≤ e.2 := by decide
  obtain ⟨ls1, h1⟩ := C43_sets_return toyCurve_lawful toyEnv_lawful h _ (fun e he => hids e (by simp at he ⊢; tauto)) hpos
  obtain ⟨-, t, s, hputs, rfl⟩ := (sets_iff toyCurve toyEnv _ ls ls1).1 h1
  obtain ⟨v, x, hv, -⟩ := root_data toyCurve_lawful toyEnv_lawful h.tree (by norm_num) _ (by simp)
    (fun e he => hids e (by simp at he ⊢; tauto)) hputs
  have ht : totalAmount (byPath ls.tree.id2Path
      ([(['0', '0', '0'], 10), (['1', '0', '0'], 5)] ++ [(['1', '0', '0'], 7)])) = 17 := by
    rw [hid]; decide
  obtain ⟨r, ls2, c1, -, rfl, -, -, tp, y, c2, c3, -⟩ := C109_violated toyCurve_lawful toyEnv_lawful h
    [(['0', '0', '0'], 10), (['1', '0', '0'], 5)] ['0', '0', '0'] ['1', '0', '0'] 31 7 hids h1 (by decide) [0, 0, 0] [1, 0, 0]
    (by rw [hid]; rfl) (by rw [hid]; rfl) (by rw [hid]; decide) (by rw [hid]; decide) (by decide) hv (by rw [ht]; norm_num)
    [.sets 0, .calls 0, .sets 1, .calls 0, .calls 1, .calls 1]
    (by intro t ht; simp at ht; rcases ht with rfl | rfl | rfl | rfl | rfl <;> decide)
    (by
      intro i hi
      have : i = 0 ∨ i = 1 := by omega
      rcases this with rfl | rfl <;> rfl)
  exact ⟨ls, _, v, r, tp, h, h1, hv, c1, c2, by rw [c3, ht]⟩

end PoL.Props
