import Verif.Proofs.WritersStart
import Verif.Proofs.Deviation

/-! Several writes at once, their callbacks overlapping: what is kept in any order. -/

set_option linter.unusedSectionVars false

namespace PoL.Verkle
open PoL.PP Sparse Spec

variable {G1 G2 GT : Type} [AddCommGroup G1] [Module Zr G1] [AddCommGroup G2] [Module Zr G2]
  [AddCommGroup GT] [Module Zr GT] [DecidableEq G1] [DecidableEq GT]

section
variable {E : Curve G1 G2 GT} {α : Zr} {F L : ℕ} {T : List ℕ → Prop} {A : List ℕ → ℤ} {ex : List ℕ → Prop}
  {root : Sparse.Vertex Data}

/-- A vertex whose parts belong together. -/
structure Shaped (E : Curve G1 G2 GT) (α : Zr) (F L : ℕ) (T : List ℕ → Prop) (q : List ℕ) (x : Vertex G1) : Prop where
  leaf : q.length + 1 = L → ∃ bf vals V, x = leafVertex F bf vals V ∧ ∀ i, (vals i).isSome = true ↔ T (q ++ [i])
  inner : q.length + 1 < L → ∃ bf vals digs, x = innerVertex E α F bf vals digs ∧
    (∀ i, (vals i).isSome = true ↔ T (q ++ [i])) ∧ ∀ i, (digs i).isSome = true ↔ T (q ++ [i])

theorem Inv.mono {db : Db} (h : Inv E α F L T A ex db) {ex' : List ℕ → Prop}
    (hex : ∀ c, c ≠ [] → T c → ex c → ex' c) : Inv E α F L T A ex' db := by
  constructor
  · intro q hq hT
    obtain ⟨bf, vals, V, h1, h2, h3⟩ := h.leaf q hq hT
    exact ⟨bf, vals, V, h1, h2, fun i hi hn => h3 i hi fun hc => hn (hex _ (by simp) hi hc)⟩
  · intro q hq hT
    obtain ⟨bf, vals, digs, h1, h2, h3, h4⟩ := h.inner q hq hT
    exact ⟨bf, vals, digs, h1, h2, h3, fun i hi hn => h4 i hi fun hc => hn (hex _ (by simp) hi hc)⟩

theorem Inv.shaped {db : Db} (h : Inv E α F L T A ex db) {q : List ℕ} (hq : q.length < L) (hT : T q) :
    ∃ x, load E db (keyOf q) = some x ∧ Shaped E α F L T q x := by
  by_cases hl : q.length + 1 = L
  · obtain ⟨bf, vals, V, h1, h2, -⟩ := h.leaf q hl hT
    exact ⟨_, h1, fun _ => ⟨_, _, _, rfl, h2⟩, fun hc => by omega⟩
  · obtain ⟨bf, vals, digs, h1, h2, h3, -⟩ := h.inner q (by omega) hT
    exact ⟨_, h1, fun hc => by omega, fun _ => ⟨_, _, _, rfl, h2, h3⟩⟩

theorem Inv.of_shaped {db : Db} (h : ∀ q, q.length < L → T q → ∃ x, load E db (keyOf q) = some x ∧ Shaped E α F L T q x) :
    Inv E α F L T A (fun _ => True) db := by
  constructor
  · intro q hq hT
    obtain ⟨x, h1, h2⟩ := h q (by omega) hT
    obtain ⟨bf, vals, V, rfl, h3⟩ := h2.leaf hq
    exact ⟨bf, vals, V, h1, h3, fun i _ hn => absurd trivial hn⟩
  · intro q hq hT
    obtain ⟨x, h1, h2⟩ := h q (by omega) hT
    obtain ⟨bf, vals, digs, rfl, h3, h4⟩ := h2.inner hq
    exact ⟨bf, vals, digs, h1, h3, h4, fun i _ hn => absurd trivial hn⟩

/-- The state after any events. -/
structure Anyhow (E : Curve G1 G2 GT) (α : Zr) (F L : ℕ) (T : List ℕ → Prop) (A : List ℕ → ℤ) (r : Running) : Prop where
  mem : Mem F L T A r.root
  inv : Inv E α F L T A (fun _ => True) r.s.db
  writer : ∀ w ∈ r.writers, w.path.length = L ∧ T w.path
  pending : ∀ w ∈ r.writers, ∀ k b, w.pending = some (k, b) → ∃ q x, T q ∧ q.length < L ∧ k = keyOf q ∧
    Shaped E α F L T q x ∧ ∀ db : Db, db k = b → load E db k = some x

theorem Anyhow.sets {env : Env} {r : Running} (h : Anyhow E α F L T A r) {i : ℕ} {w : Writer} (hw : r.writers[i]? = some w)
    (hst : w.started = false) :
    ∃ r', r.step E (newPublicParams E α (F + 2)) env F (.sets i) = some r' ∧
      Anyhow E α F L T (Function.update A w.path w.amount) r' ∧ r'.writers = r.writers.set i { w with started := true } := by
  refine ⟨_, step_sets hw hst, ?_, rfl⟩
  have hm := List.mem_of_getElem? hw
  obtain ⟨hl, hT⟩ := h.writer w hm
  refine ⟨h.mem.set hl hT _, Inv.of_shaped fun q hq hTq => h.inv.shaped hq hTq, fun x hx => ?_, fun x hx => ?_⟩
  · rcases List.mem_or_eq_of_mem_set hx with hx | rfl
    · exact h.writer x hx
    · exact ⟨hl, hT⟩
  · rcases List.mem_or_eq_of_mem_set hx with hx | rfl
    · exact h.pending x hx
    · exact h.pending w hm

theorem Anyhow.reads (hE : E.Lawful) {env : Env} (henv : env.Lawful) (hF : F + 2 ≤ 65536)
    (hpre : ∀ q p, q <+: p → T p → T q) {r : Running} (h : Anyhow E α F L T A r) {i : ℕ} {w : Writer}
    (hw : r.writers[i]? = some w) (hst : w.started = true) (hp : w.pending = none) (hd : w.done < w.path.length) :
    ∃ r' kb, r.step E (newPublicParams E α (F + 2)) env F (.reads i) = some r' ∧ Anyhow E α F L T A r' ∧
      r'.writers = r.writers.set i { w with pending := some kb } := by
  have hm := List.mem_of_getElem? hw
  obtain ⟨hl, hT⟩ := h.writer w hm
  obtain ⟨q, j, tl, hq, htl⟩ : ∃ q j tl, w.path = q ++ j :: tl ∧ tl.length = w.done := by
    refine ⟨w.path.take (L - 1 - w.done), w.path[L - 1 - w.done]'(by omega), w.path.drop (L - 1 - w.done + 1), ?_, ?_⟩
    · rw [List.getElem_cons_drop, List.take_append_drop]
    · rw [List.length_drop]; omega
  have hql : q.length + 1 + w.done = L := by
    have := congrArg List.length hq
    simp at this
    omega
  have hTj : T (q ++ [j]) := hpre _ _ ⟨tl, by rw [hq]; simp⟩ hT
  have hTq : T q := hpre _ _ ⟨[j], rfl⟩ hTj
  obtain ⟨u, hu⟩ := h.mem.there q hTq
  obtain ⟨raw, x, k1, k2, k3, k4⟩ := h.inv.call hE henv hF h.mem (q := q) (i := j) (by omega) hTj hTq
    (ex' := fun _ => True) (fun _ _ => Or.inr trivial) (fun _ => trivial) hu
  have hk3 : decide (q.length + 1 = L) = decide (w.done = 0) := by
    rw [decide_eq_decide]; omega
  rw [hk3] at k3
  refine ⟨_, _, step_reads hw hst hp hd hq htl hu k2 k1 k3, ?_, rfl⟩
  refine ⟨h.mem, h.inv, fun x hx => ?_, fun y hy => ?_⟩
  · rcases List.mem_or_eq_of_mem_set hx with hx | rfl
    · exact h.writer x hx
    · exact ⟨hl, hT⟩
  · rcases List.mem_or_eq_of_mem_set hy with hy | rfl
    · exact h.pending y hy
    · intro k b hkb
      dsimp only at hkb
      rw [Option.some.injEq, Prod.mk.injEq] at hkb
      obtain ⟨rfl, rfl⟩ := hkb
      obtain ⟨x', x1, x2⟩ := k4.shaped (q := q) (by omega) hTq
      rw [load_store_self hE henv, Option.some.injEq] at x1
      subst x1
      refine ⟨q, x, hTq, by omega, rfl, x2, fun db hdb => ?_⟩
      rw [load_congr E hdb, load_store_self hE henv]

theorem Anyhow.writes {env : Env} {r : Running} (h : Anyhow E α F L T A r) {i : ℕ} {w : Writer}
    (hw : r.writers[i]? = some w) {kb : Str × Bytes} (hp : w.pending = some kb) :
    ∃ r', r.step E (newPublicParams E α (F + 2)) env F (.writes i) = some r' ∧ Anyhow E α F L T A r' ∧
      r'.writers = r.writers.set i { w with done := w.done + 1, pending := none } := by
  have hm := List.mem_of_getElem? hw
  obtain ⟨hl, hT⟩ := h.writer w hm
  obtain ⟨k, b⟩ := kb
  obtain ⟨q, x, hTq, hqL, rfl, hsh, hload⟩ := h.pending w hm k b hp
  refine ⟨_, step_writes hw hp, ?_, rfl⟩
  refine ⟨h.mem, Inv.of_shaped fun q' hq' hTq' => ?_, fun x hx => ?_, fun y hy => ?_⟩
  · by_cases hqq : q' = q
    · subst hqq
      exact ⟨x, hload _ (by simp [Db.put]), hsh⟩
    · obtain ⟨x', x1, x2⟩ := h.inv.shaped hq' hTq'
      refine ⟨x', ?_, x2⟩
      rw [← x1]
      apply load_congr
      have : keyOf q' ≠ keyOf q := fun hc => hqq (keyOf_injective hc)
      simp [Db.put, this]
  · rcases List.mem_or_eq_of_mem_set hx with hx | rfl
    · exact h.writer x hx
    · exact ⟨hl, hT⟩
  · rcases List.mem_or_eq_of_mem_set hy with hy | rfl
    · exact h.pending y hy
    · intro k b hkb
      simp at hkb

/-- The amounts after an event. -/
def amountsAfter (A : List ℕ → ℤ) (r : Running) : Event → List ℕ → ℤ
  | .sets i => (r.writers[i]?).elim A fun w => Function.update A w.path w.amount
  | _ => A

theorem amountsAfter_sets (A : List ℕ → ℤ) (r : Running) (i : ℕ) :
    amountsAfter A r (.sets i) = (r.writers[i]?).elim A fun w => Function.update A w.path w.amount := rfl

/-- Any event keeps the state in shape, and the paths and amounts of the writers. -/
theorem Anyhow.step (hE : E.Lawful) {env : Env} (henv : env.Lawful) (hF : F + 2 ≤ 65536)
    (hpre : ∀ q p, q <+: p → T p → T q) {r r' : Running} (h : Anyhow E α F L T A r) {e : Event}
    (hr : r.step E (newPublicParams E α (F + 2)) env F e = some r') :
    Anyhow E α F L T (amountsAfter A r e) r' ∧
      r'.writers.map (fun w => (w.path, w.amount)) = r.writers.map (fun w => (w.path, w.amount)) := by
  have hmap : ∀ i (w w' : Writer), r.writers[i]? = some w → w'.path = w.path → w'.amount = w.amount →
      (r.writers.set i w').map (fun w => (w.path, w.amount)) = r.writers.map (fun w => (w.path, w.amount)) := by
    intro i w w' hw h1 h2
    rw [List.map_set, h1, h2]
    apply List.ext_getElem?
    intro k
    have hlt : i < r.writers.length := (List.getElem?_eq_some_iff.1 hw).1
    by_cases hk : k = i
    · subst hk
      rw [List.getElem?_set_self (by simpa using hlt), List.getElem?_map, hw]; rfl
    · rw [List.getElem?_set_ne (Ne.symm hk)]
  cases e with
  | sets i =>
    cases hw : r.writers[i]? with
    | none => simp [Running.step, hw] at hr
    | some w =>
      cases hst : w.started with
      | true => simp [Running.step, hw, hst] at hr
      | false =>
        obtain ⟨r2, h1, h2, h3⟩ := h.sets (env := env) hw hst
        rw [hr, Option.some.injEq] at h1
        subst h1
        refine ⟨?_, by rw [h3]; exact hmap i w _ hw rfl rfl⟩
        rw [amountsAfter_sets, hw]
        exact h2
  | reads i =>
    cases hw : r.writers[i]? with
    | none => simp [Running.step, hw] at hr
    | some w =>
      by_cases hc : w.started = false ∨ w.pending.isSome ∨ w.path.length ≤ w.done
      · simp only [Running.step, hw, Option.bind_eq_bind, Option.bind_some] at hr
        rw [if_pos hc] at hr
        simp at hr
      · push Not at hc
        obtain ⟨r2, kb, h1, h2, h3⟩ := h.reads hE henv hF hpre hw (by simpa using hc.1) (by simpa using hc.2.1) hc.2.2
        rw [hr, Option.some.injEq] at h1
        subst h1
        exact ⟨h2, by rw [h3]; exact hmap i w _ hw rfl rfl⟩
  | writes i =>
    cases hw : r.writers[i]? with
    | none => simp [Running.step, hw] at hr
    | some w =>
      cases hp : w.pending with
      | none => simp [Running.step, hw, hp] at hr
      | some kb =>
        obtain ⟨r2, h1, h2, h3⟩ := h.writes (env := env) hw hp
        rw [hr, Option.some.injEq] at h1
        subst h1
        exact ⟨h2, by rw [h3]; exact hmap i w _ hw rfl rfl⟩

theorem update_latest (g : List (List ℕ × ℤ)) (e : List ℕ × ℤ) :
    Function.update (latest g) e.1 e.2 = latest (g ++ [e]) := by
  funext p
  rw [latest_snoc]
  by_cases hp : e.1 = p
  · subst hp; rw [Function.update_self, if_pos rfl]
  · rw [Function.update_of_ne (Ne.symm hp), if_neg hp]

/-- Any events. -/
theorem Anyhow.run (hE : E.Lawful) {env : Env} (henv : env.Lawful) (hF : F + 2 ≤ 65536)
    (hpre : ∀ q p, q <+: p → T p → T q) (events : List Event) (g news : List (List ℕ × ℤ)) {r r' : Running}
    (h : Anyhow E α F L T (latest g) r) (hnews : r.writers.map (fun w => (w.path, w.amount)) = news)
    (hr : r.run E (newPublicParams E α (F + 2)) env F events = some r') :
    Anyhow E α F L T (latest (g ++ setOrder news events)) r' ∧
      r'.writers.map (fun w => (w.path, w.amount)) = news := by
  induction events generalizing r g with
  | nil =>
    have : r = r' := by simpa [Running.run] using hr
    subst this
    refine ⟨?_, hnews⟩
    have : setOrder news [] = [] := rfl
    rw [this, List.append_nil]
    exact h
  | cons e es ih =>
    rw [run_cons] at hr
    obtain ⟨r1, hr1, hr⟩ := Option.bind_eq_some_iff.1 hr
    obtain ⟨h1, h2⟩ := h.step hE henv hF hpre hr1
    rw [hnews] at h2
    have hnot : ∀ e' : Event, amountsAfter (latest g) r e' = latest (g ++ setOrder news [e']) := by
      intro e'
      cases e' with
      | sets i =>
        rw [amountsAfter_sets]
        unfold setOrder
        have e1 : news[i]? = (r.writers[i]?).map fun w => (w.path, w.amount) := by rw [← hnews, List.getElem?_map]
        cases hw : r.writers[i]? with
        | none =>
          rw [hw, Option.map_none] at e1
          simp [e1]
        | some w =>
          rw [hw, Option.map_some] at e1
          have := update_latest g (w.path, w.amount)
          simp only [List.filterMap_cons, List.filterMap_nil, e1]
          exact this
      | reads i => simp [amountsAfter, setOrder]
      | writes i => simp [amountsAfter, setOrder]
    rw [hnot e] at h1
    have happ : setOrder news (e :: es) = setOrder news [e] ++ setOrder news es := by
      unfold setOrder
      rw [← List.filterMap_append]
      rfl
    rw [happ, ← List.append_assoc]
    exact ih _ h1 h2 hr

end

end PoL.Verkle
