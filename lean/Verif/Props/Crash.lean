import Verif.Proofs.Crash
import Verif.Props.Verkle

/-!
# Stopping in the middle of a write (C61)
-/

set_option linter.unusedSectionVars false

namespace PoL.Props
open Spec Verkle

variable {G1 G2 GT : Type} [AddCommGroup G1] [Module Zr G1] [AddCommGroup G2] [Module Zr G2]
  [AddCommGroup GT] [Module Zr GT] [DecidableEq G1] [DecidableEq GT]

/-- The vertices stored at `q` and at its child `i` agree: the parent's value is the child's sum. -/
def EdgeAgrees (E : Curve G1 G2 GT) (db : Db) (q : List ℕ) (i : UInt16) : Prop :=
  ∃ x y : Vertex G1, Vertex.fromBytes E (db (keyOf q)) = some x ∧
    Vertex.fromBytes E (db (keyOf (q ++ [i.toNat]))) = some y ∧ x.values i = some y.sum

/-- The vertices stored at `q` and at its child `i` are there and do not agree. -/
def EdgeDisagrees (E : Curve G1 G2 GT) (db : Db) (q : List ℕ) (i : UInt16) : Prop :=
  ∃ x y : Vertex G1, Vertex.fromBytes E (db (keyOf q)) = some x ∧
    Vertex.fromBytes E (db (keyOf (q ++ [i.toNat]))) = some y ∧ x.values i ≠ some y.sum

theorem edgeDisagrees_iff (E : Curve G1 G2 GT) (db : Db) (q : List ℕ) (i : UInt16) (h : EdgeDisagrees E db q i) :
    ¬ EdgeAgrees E db q i := by
  rintro ⟨x, y, h1, h2, h3⟩
  obtain ⟨x', y', h1', h2', h3'⟩ := h
  rw [h1, Option.some.injEq] at h1'
  rw [h2, Option.some.injEq] at h2'
  subst h1' h2'
  exact h3' h3

/-- C61: the states in which a write at path `p` can stop.  There is one for every number `k` of database writes from
`0` to the length of `p`; after `k` writes the `k` deepest vertices on the path are as after the whole write, and
everything else is as before it. -/
theorem C61_crash_states {E : Curve G1 G2 GT} {env : Env} {t t1 t2 : Tree G1 G2 GT} (ht : t.root = none)
    (hist : List (Str × ℤ)) (id : Str) (n : ℤ) {s s1 s2 : State} (h1 : t.puts E env hist s = some (t1, s1))
    (h2 : t1.put E env id n s1 = some (t2, s2)) (p : List ℕ) (hp : t.id2Path id = some p) :
    ∃ l, t1.crashStates E env id n s1 = some l ∧ l.length = p.length + 1 ∧
      ∀ k st, l[k]? = some st →
        (∀ j, p.length - k ≤ j → j < p.length → st.db (keyOf (p.take j)) = s2.db (keyOf (p.take j))) ∧
        (∀ key, (∀ j, p.length - k ≤ j → j < p.length → key ≠ keyOf (p.take j)) → st.db key = s1.db key) := by
  obtain ⟨l, a1, a2, a3⟩ := crashStates_eq ht h1 h2 p hp
  refine ⟨l, a1, a2, fun k st hst => ⟨fun j hj1 hj2 => ?_, fun key hkey => ?_⟩⟩
  · exact (a3 k st hst _).1 ⟨j, hj1, hj2, rfl⟩
  · exact (a3 k st hst _).2 (fun ⟨j, h1, h2, h3⟩ => hkey j h1 h2 h3)

theorem byPath_concat (f : Str → Option (List ℕ)) (hist : List (Str × ℤ)) (id : Str) (n : ℤ) (p : List ℕ)
    (hp : f id = some p) : byPath f (hist ++ [(id, n)]) = byPath f hist ++ [(p, n)] := by
  simp [byPath, hp]

/-- C61, partial: whenever the process stops, all pairs of parent and child agree that were in the database before,
except one: the last vertex written and its parent.  Missing: this pair (see `C61_violated`). -/
theorem C61_other_edges_partial {E : Curve G1 G2 GT} (hE : E.Lawful) {env : Env} (henv : env.Lawful) {α : Zr} {F : ℕ}
    {t t1 : Tree G1 G2 GT} (ht : NewTree E α F t) {L : ℕ} (hL : 1 ≤ L) (hist : List (Str × ℤ)) (id : Str) (n : ℤ)
    {s s1 : State} (hids : ValidIds t.id2Path F L (hist ++ [(id, n)])) (h1 : t.puts E env hist s = some (t1, s1))
    (p : List ℕ) (hp : t.id2Path id = some p) :
    ∃ l, t1.crashStates E env id n s1 = some l ∧ l.length = L + 1 ∧
      ∀ (k : ℕ) (st : State), l[k]? = some st → ∀ (q : List ℕ) (i : UInt16), q.length + 1 < L →
        touched (byPath t.id2Path hist) (q ++ [i.toNat]) → q ++ [i.toNat] ≠ p.take (L - k) →
        EdgeAgrees E st.db q i := by
  have hpL : p.length = L := by
    obtain ⟨p', hp', hl, -⟩ := hids (id, n) (by simp)
    rw [hp, Option.some.injEq] at hp'
    rw [hp']; exact hl
  obtain ⟨t2, s2, h2⟩ := C39_writes_return hE henv ht hL (hist ++ [(id, n)]) s hids
  have h2' := h2
  rw [vputs_concat, h1, Option.bind_some] at h2'
  obtain ⟨l, a1, a2, a3⟩ := crashStates_eq ht.root h1 h2' p hp
  rw [hpL] at a2 a3
  refine ⟨l, a1, a2, fun k st hst q i hq ht1 hne => ?_⟩
  have hids1 : ValidIds t.id2Path F L hist := fun e he => hids e (by simp [he])
  have hb := byPath_concat t.id2Path hist id n p hp
  have htq : ∀ h : List (List ℕ × ℤ), touched h (q ++ [i.toNat]) → touched h q := by
    rintro h ⟨e, he, hpre⟩
    exact ⟨e, he, (List.prefix_append _ _).trans hpre⟩
  have ht2 : touched (byPath t.id2Path (hist ++ [(id, n)])) (q ++ [i.toNat]) := by
    obtain ⟨e, he, hpre⟩ := ht1
    exact ⟨e, by rw [hb]; simp [he], hpre⟩
  obtain ⟨x1, b1, b2, b3, -⟩ := C39_stored_sums hE henv ht hL hist hids1 h1 q (by omega) (htq _ ht1)
  obtain ⟨y1, c1, c2, -, -⟩ := C39_stored_sums hE henv ht hL hist hids1 h1 (q ++ [i.toNat]) (by simp; omega) ht1
  obtain ⟨x2, d1, d2, d3, -⟩ := C39_stored_sums hE henv ht hL _ hids h2 q (by omega) (htq _ ht2)
  obtain ⟨y2, e1, e2, -, -⟩ := C39_stored_sums hE henv ht hL _ hids h2 (q ++ [i.toNat]) (by simp; omega) ht2
  have hx1 := b3 i ht1
  have hx2 := d3 i ht2
  obtain ⟨f1, f2⟩ := a3 k st hst (keyOf q)
  obtain ⟨g1, g2⟩ := a3 k st hst (keyOf (q ++ [i.toNat]))
  by_cases hqn : ∃ j, L - k ≤ j ∧ j < L ∧ keyOf q = keyOf (p.take j)
  · by_cases hcn : ∃ j, L - k ≤ j ∧ j < L ∧ keyOf (q ++ [i.toNat]) = keyOf (p.take j)
    · exact ⟨x2, y2, by rw [f1 hqn]; exact d1, by rw [g1 hcn]; exact e1, by rw [hx2, e2]⟩
    · -- the child is not on the path
      refine ⟨x2, y1, by rw [f1 hqn]; exact d1, by rw [g2 hcn]; exact c1, ?_⟩
      rw [hx2, c2, hb, amountBelow_concat, if_neg, add_zero]
      intro hpre
      obtain ⟨j, hj1, hj2, hj3⟩ := hqn
      have hqj := congrArg List.length (keyOf_injective hj3)
      rw [List.length_take, hpL] at hqj
      apply hcn
      refine ⟨q.length + 1, by omega, by omega, ?_⟩
      rw [List.prefix_iff_eq_take] at hpre
      rw [hpre]
      simp
  · by_cases hcn : ∃ j, L - k ≤ j ∧ j < L ∧ keyOf (q ++ [i.toNat]) = keyOf (p.take j)
    · -- the last vertex written and its parent
      exfalso
      obtain ⟨j, hj1, hj2, hj3⟩ := hcn
      have hc := keyOf_injective hj3
      have hlen := congrArg List.length hc
      rw [List.length_take, hpL, List.length_append, List.length_singleton] at hlen
      have hj : j = q.length + 1 := by omega
      have hqt : q = p.take q.length := by
        have := congrArg (List.take q.length) hc
        rw [List.take_left, List.take_take, Nat.min_eq_left (by omega)] at this
        exact this
      have : ¬ L - k ≤ q.length := fun hc => hqn ⟨q.length, hc, by omega, congrArg keyOf hqt⟩
      exact hne (by rw [hc, show j = L - k by omega])
    · exact ⟨x1, y1, by rw [f2 hqn]; exact b1, by rw [g2 hcn]; exact c1, by rw [hx1, c2]⟩

/-- C61 is violated: for every curve, tree, history and write of a different amount, and for every number `k` of
database writes other than none and all of them, stopping after `k` writes leaves the last vertex written and its parent
in disagreement, if the parent was in the database before. -/
theorem C61_violated {E : Curve G1 G2 GT} (hE : E.Lawful) {env : Env} (henv : env.Lawful) {α : Zr} {F : ℕ}
    {t t1 : Tree G1 G2 GT} (ht : NewTree E α F t) {L : ℕ} (hL : 1 ≤ L) (hist : List (Str × ℤ)) (id : Str) (n : ℤ)
    {s s1 : State} (hids : ValidIds t.id2Path F L (hist ++ [(id, n)])) (h1 : t.puts E env hist s = some (t1, s1))
    (q : List ℕ) (i : UInt16) (r : List ℕ) (hr : r ≠ []) (hp : t.id2Path id = some (q ++ [i.toNat] ++ r))
    (hq : touched (byPath t.id2Path hist) q)
    (hn : intToZr n ≠ intToZr (latest (byPath t.id2Path hist) (q ++ [i.toNat] ++ r))) :
    ∃ l st, t1.crashStates E env id n s1 = some l ∧ l[r.length]? = some st ∧ EdgeDisagrees E st.db q i := by
  obtain ⟨p, hpe⟩ : ∃ p, p = q ++ [i.toNat] ++ r := ⟨_, rfl⟩
  rw [← hpe] at hp hn
  have hpL : p.length = L := by
    obtain ⟨p', hp', hl, -⟩ := hids (id, n) (by simp)
    rw [hp, Option.some.injEq] at hp'
    rw [hp']; exact hl
  have hlen : p.length = q.length + 1 + r.length := by rw [hpe]; simp; omega
  have hrl : 0 < r.length := List.length_pos_of_ne_nil hr
  obtain ⟨t2, s2, h2⟩ := C39_writes_return hE henv ht hL (hist ++ [(id, n)]) s hids
  have h2' := h2
  rw [vputs_concat, h1, Option.bind_some] at h2'
  obtain ⟨l, a1, a2, a3⟩ := crashStates_eq ht.root h1 h2' p hp
  have hids1 : ValidIds t.id2Path F L hist := fun e he => hids e (by simp [he])
  have hb := byPath_concat t.id2Path hist id n p hp
  have hst : r.length < l.length := by omega
  refine ⟨l, l[r.length], a1, List.getElem?_eq_getElem hst, ?_⟩
  have a3 := a3 r.length _ (List.getElem?_eq_getElem hst)
  have ht2 : touched (byPath t.id2Path (hist ++ [(id, n)])) (q ++ [i.toNat]) :=
    ⟨(p, n), by rw [hb]; simp, by rw [hpe]; exact List.prefix_append _ _⟩
  obtain ⟨x, b1, -, b3, b4⟩ := C39_stored_sums hE henv ht hL hist hids1 h1 q (by omega) hq
  obtain ⟨y, c1, c2, -, -⟩ := C39_stored_sums hE henv ht hL _ hids h2 (q ++ [i.toNat]) (by simp; omega) ht2
  have hqt : q ++ [i.toNat] = p.take (q.length + 1) := by
    rw [hpe, List.take_left' (by simp)]
  refine ⟨x, y, ?_, ?_, ?_⟩
  · rw [(a3 (keyOf q)).2]
    · exact b1
    · rintro ⟨j, hj1, hj2, hj3⟩
      have := congrArg List.length (keyOf_injective hj3)
      rw [List.length_take] at this
      omega
  · rw [(a3 (keyOf (q ++ [i.toNat]))).1 ⟨q.length + 1, by omega, by omega, by rw [hqt]⟩]
    exact c1
  · by_cases htc : touched (byPath t.id2Path hist) (q ++ [i.toNat])
    · rw [b3 i htc, c2, hb, amountBelow_concat, if_pos (by rw [hpe]; exact List.prefix_append _ _)]
      intro hc
      apply hn
      have hc := Option.some.inj hc
      unfold intToZr at hc ⊢
      push_cast at hc ⊢
      linear_combination -hc
    · rw [b4 i htc]
      simp

/-- The condition of `C61_violated` on the amounts is needed: writing the same amount again is consistent wherever the
process stops, also for the last vertex written and its parent. -/
theorem C61_same_amount {E : Curve G1 G2 GT} (hE : E.Lawful) {env : Env} (henv : env.Lawful) {α : Zr} {F : ℕ}
    {t t1 : Tree G1 G2 GT} (ht : NewTree E α F t) {L : ℕ} (hL : 1 ≤ L) (hist : List (Str × ℤ)) (id : Str) (n : ℤ)
    {s s1 : State} (hids : ValidIds t.id2Path F L (hist ++ [(id, n)])) (h1 : t.puts E env hist s = some (t1, s1))
    (p : List ℕ) (hp : t.id2Path id = some p) (hn : n = latest (byPath t.id2Path hist) p) :
    ∃ l, t1.crashStates E env id n s1 = some l ∧ l.length = L + 1 ∧
      ∀ (k : ℕ) (st : State), l[k]? = some st → ∀ (q : List ℕ) (i : UInt16), q.length + 1 < L →
        touched (byPath t.id2Path hist) (q ++ [i.toNat]) → EdgeAgrees E st.db q i := by
  have hpL : p.length = L := by
    obtain ⟨p', hp', hl, -⟩ := hids (id, n) (by simp)
    rw [hp, Option.some.injEq] at hp'
    rw [hp']; exact hl
  obtain ⟨t2, s2, h2⟩ := C39_writes_return hE henv ht hL (hist ++ [(id, n)]) s hids
  have h2' := h2
  rw [vputs_concat, h1, Option.bind_some] at h2'
  obtain ⟨l, a1, a2, a3⟩ := crashStates_eq ht.root h1 h2' p hp
  rw [hpL] at a2
  refine ⟨l, a1, a2, fun k st hst q i hq ht1 => ?_⟩
  have hids1 : ValidIds t.id2Path F L hist := fun e he => hids e (by simp [he])
  have hb := byPath_concat t.id2Path hist id n p hp
  have hsame : ∀ r, amountBelow (byPath t.id2Path (hist ++ [(id, n)])) r = amountBelow (byPath t.id2Path hist) r := by
    intro r
    rw [hb, amountBelow_concat, ← hn, sub_self, ite_self, add_zero]
  have htq : ∀ h : List (List ℕ × ℤ), touched h (q ++ [i.toNat]) → touched h q := by
    rintro h ⟨e, he, hpre⟩
    exact ⟨e, he, (List.prefix_append _ _).trans hpre⟩
  have ht2 : touched (byPath t.id2Path (hist ++ [(id, n)])) (q ++ [i.toNat]) := by
    obtain ⟨e, he, hpre⟩ := ht1
    exact ⟨e, by rw [hb]; simp [he], hpre⟩
  have hx : ∃ x, Vertex.fromBytes E (st.db (keyOf q)) = some x ∧
      x.values i = some (intToZr (amountBelow (byPath t.id2Path hist) (q ++ [i.toNat]))) := by
    obtain ⟨f1, f2⟩ := a3 k st hst (keyOf q)
    by_cases hqn : ∃ j, p.length - k ≤ j ∧ j < p.length ∧ keyOf q = keyOf (p.take j)
    · obtain ⟨x2, d1, d2, d3, -⟩ := C39_stored_sums hE henv ht hL _ hids h2 q (by omega) (htq _ ht2)
      exact ⟨x2, by rw [f1 hqn]; exact d1, by rw [d3 i ht2, hsame]⟩
    · obtain ⟨x1, b1, b2, b3, -⟩ := C39_stored_sums hE henv ht hL hist hids1 h1 q (by omega) (htq _ ht1)
      exact ⟨x1, by rw [f2 hqn]; exact b1, b3 i ht1⟩
  have hy : ∃ y, Vertex.fromBytes E (st.db (keyOf (q ++ [i.toNat]))) = some y ∧
      y.sum = intToZr (amountBelow (byPath t.id2Path hist) (q ++ [i.toNat])) := by
    obtain ⟨f1, f2⟩ := a3 k st hst (keyOf (q ++ [i.toNat]))
    by_cases hqn : ∃ j, p.length - k ≤ j ∧ j < p.length ∧ keyOf (q ++ [i.toNat]) = keyOf (p.take j)
    · obtain ⟨x2, d1, d2, -, -⟩ := C39_stored_sums hE henv ht hL _ hids h2 (q ++ [i.toNat]) (by simp; omega) ht2
      exact ⟨x2, by rw [f1 hqn]; exact d1, by rw [d2, hsame]⟩
    · obtain ⟨x1, b1, b2, -, -⟩ := C39_stored_sums hE henv ht hL hist hids1 h1 (q ++ [i.toNat]) (by simp; omega) ht1
      exact ⟨x1, by rw [f2 hqn]; exact b1, b2⟩
  obtain ⟨x, hx1, hx2⟩ := hx
  obtain ⟨y, hy1, hy2⟩ := hy
  exact ⟨x, y, hx1, hy1, by rw [hx2, hy2]⟩

/-! ## Example -/

theorem toyHist_valid' : ValidIds toyTree.id2Path 3 3 (toyHist ++ [(['0', '1', '2'], 31)]) := by
  have h : ∀ e ∈ toyHist ++ [(['0', '1', '2'], 31)], (e.1.map fun ch => ch.toNat - 48).length = 3 ∧
      ∀ x ∈ e.1.map fun ch => ch.toNat - 48, x < 3 := by decide
  intro e he
  exact ⟨_, toyTree_path e.1, h e he⟩

-- changing the amount of `012` from 30 to 31 and stopping after two of the three writes: the root disagrees
-- with its child 0
example : ∃ t1 s1 l st, toyTree.puts toyCurve toyEnv toyHist ⟨fun _ => [], 0⟩ = some (t1, s1) ∧
    t1.crashStates toyCurve toyEnv ['0', '1', '2'] 31 s1 = some l ∧ l[2]? = some st ∧
    EdgeDisagrees toyCurve st.db [] 0 := by
  obtain ⟨t1, s1, h⟩ := C39_writes_return toyCurve_lawful toyEnv_lawful toyTree_new (L := 3) (by decide) toyHist
    ⟨fun _ => [], 0⟩ toyHist_valid
  obtain ⟨l, st, h1, h2, h3⟩ := C61_violated toyCurve_lawful toyEnv_lawful toyTree_new (L := 3) (by decide) toyHist
    ['0', '1', '2'] 31 toyHist_valid' h [] 0 [1, 2] (by decide) rfl ⟨([0, 1, 2], 10), by decide, by decide⟩ (by
      have : latest (byPath toyTree.id2Path toyHist) ([] ++ [(0 : UInt16).toNat] ++ [1, 2]) = 30 := by decide
      rw [this]
      intro hc
      have h1 : (1 : Zr) = 0 := by
        unfold intToZr at hc
        push_cast at hc
        linear_combination hc
      exact one_ne_zero h1)
  exact ⟨t1, s1, l, st, h, h1, h2, h3⟩

end PoL.Props
