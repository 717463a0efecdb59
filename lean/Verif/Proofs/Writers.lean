import Verif.Spec.Writers
import Verif.Proofs.VerkleBlind
import Verif.Proofs.PolTree
import Verif.Proofs.Crash

/-! Several writes at once: the invariant. -/

set_option linter.unusedSectionVars false

namespace PoL.Verkle
open PoL.PP Sparse Spec

variable {G1 G2 GT : Type} [AddCommGroup G1] [Module Zr G1] [AddCommGroup G2] [Module Zr G2]
  [AddCommGroup GT] [Module Zr GT] [DecidableEq G1] [DecidableEq GT]

theorem vertexAt_find (q : List ℕ) (v : Sparse.Vertex Data) : vertexAt q v = Sparse.find q v := by
  induction q generalizing v with
  | nil => rfl
  | cons p t ih =>
    rw [vertexAt, Sparse.find_cons]
    congr 1
    funext u
    exact ih u

/-- The vertices in memory. -/
structure Mem (F L : ℕ) (T : List ℕ → Prop) (A : List ℕ → ℤ) (root : Sparse.Vertex Data) : Prop where
  there : ∀ q, T q → ∃ u, vertexAt q root = some u
  inner : ∀ q u, q.length < L → vertexAt q root = some u →
    u.key = keyOf q ∧ u.data = some (.key (keyOf q)) ∧ ∀ i w, descGet u.desc i = some w → i < F
  leaf : ∀ q u, q.length = L → vertexAt q root = some u → u.data = some (.amount (A q))

theorem vertexAt_concat (q : List ℕ) (i : ℕ) (root u : Sparse.Vertex Data) (hu : vertexAt q root = some u) :
    vertexAt (q ++ [i]) root = descGet u.desc i := by
  rw [vertexAt_find] at hu ⊢
  rw [Sparse.find_append, hu, Option.bind_some, Sparse.find_cons]
  cases descGet u.desc i <;> rfl

/-- The vertices in the database: every child of a stored vertex is entered as it is stored, unless it is in `ex`. -/
structure Inv (E : Curve G1 G2 GT) (α : Zr) (F L : ℕ) (T : List ℕ → Prop) (A : List ℕ → ℤ) (ex : List ℕ → Prop)
    (db : Db) : Prop where
  leaf : ∀ q, q.length + 1 = L → T q → ∃ bf vals V, load E db (keyOf q) = some (leafVertex F bf vals V) ∧
    (∀ i, (vals i).isSome = true ↔ T (q ++ [i])) ∧
    ∀ i, T (q ++ [i]) → ¬ ex (q ++ [i]) → vals i = some (intToZr (A (q ++ [i])))
  inner : ∀ q, q.length + 1 < L → T q → ∃ bf vals digs, load E db (keyOf q) = some (innerVertex E α F bf vals digs) ∧
    (∀ i, (vals i).isSome = true ↔ T (q ++ [i])) ∧ (∀ i, (digs i).isSome = true ↔ T (q ++ [i])) ∧
    ∀ i, T (q ++ [i]) → ¬ ex (q ++ [i]) →
      ∃ y, load E db (keyOf (q ++ [i])) = some y ∧ vals i = some y.sum ∧ digs i = some (dig E y)

section call
variable {E : Curve G1 G2 GT} {α : Zr} {F L : ℕ} {T : List ℕ → Prop} {A : List ℕ → ℤ} {ex : List ℕ → Prop}
  {root : Sparse.Vertex Data}

theorem Inv.stored {db : Db} (h : Inv E α F L T A ex db) (q : List ℕ) (hq : q.length < L) (hT : T q) :
    ∃ x, load E db (keyOf q) = some x := by
  by_cases hl : q.length + 1 = L
  · obtain ⟨bf, vals, V, h1, -⟩ := h.leaf q hl hT
    exact ⟨_, h1⟩
  · obtain ⟨bf, vals, digs, h1, -⟩ := h.inner q (by omega) hT
    exact ⟨_, h1⟩

/-- What `rawData` gives to the callback. -/
theorem Mem.raw (hm : Mem F L T A root) {q : List ℕ} (hq : q.length < L) {i : ℕ} (hT : T (q ++ [i]))
    {u : Sparse.Vertex Data} (hu : vertexAt q root = some u) :
    ∃ f : ℕ → Option Data, rawData u.desc F = some ((List.range F).map f) ∧ i < F ∧
      (q.length + 1 = L → f i = some (.amount (A (q ++ [i])))) ∧
      (q.length + 1 < L → f i = some (.key (keyOf (q ++ [i])))) := by
  obtain ⟨-, -, hlt⟩ := hm.inner q u hq hu
  obtain ⟨w, hw⟩ := hm.there _ hT
  have hd := hw
  rw [vertexAt_concat q i root u hu] at hd
  refine ⟨fun i => (descGet u.desc i).bind Sparse.Vertex.data, rawData_eq _ _ hlt, hlt _ _ hd, fun hl => ?_, fun hl => ?_⟩
  · dsimp only
    rw [hd, Option.bind_some, hm.leaf _ w (by simpa using hl) hw]
  · dsimp only
    rw [hd, Option.bind_some, (hm.inner _ w (by simpa using hl) hw).2.1]

/-- A callback above the layer over the leaves. -/
theorem call_inner (hE : E.Lawful) (env : Env) (hF : F + 2 ≤ 65536) (hm : Mem F L T A root) {q : List ℕ} {i : ℕ}
    (hq : q.length + 1 < L) (hT : T (q ++ [i])) {u : Sparse.Vertex Data} (hu : vertexAt q root = some u) {s : State} {bf : Zr}
    {vals digs : ℕ → Option Zr} (hx : load E s.db (keyOf q) = some (innerVertex E α F bf vals digs))
    (hvd : ∀ i, (vals i).isSome = (digs i).isSome) {y : Vertex G1} (hy : load E s.db (keyOf (q ++ [i])) = some y) :
    ∃ raw, rawData u.desc F = some raw ∧ updateInnerVertex E (newPublicParams E α (F + 2)) env u.key u.data raw false i s
      = some (some (.key (keyOf q)), store E env (keyOf q)
        (innerVertex E α F bf (Function.update vals i (some y.sum)) (Function.update digs i (some (dig E y)))) s) := by
  obtain ⟨f, h1, h2, -, h4⟩ := hm.raw (by omega) hT hu
  obtain ⟨k1, k2, -⟩ := hm.inner q u (by omega) hu
  refine ⟨_, h1, ?_⟩
  unfold updateInnerVertex
  rw [if_neg (by simp), k1, k2]
  exact updateInner_old hE α F hF env _ _ f i h2 s bf vals digs hvd hx y (by rw [h4 hq]; exact hy)

/-- One call of the callback keeps the invariant; the vertex written is the one that may now differ from its parent's
entry. -/
theorem Inv.call (hE : E.Lawful) {env : Env} (henv : env.Lawful) (hF : F + 2 ≤ 65536) (hm : Mem F L T A root) {s : State}
    (h : Inv E α F L T A ex s.db) {q : List ℕ} {i : ℕ} (hq : q.length < L) (hT : T (q ++ [i])) (hTq : T q)
    {ex' : List ℕ → Prop} (hex : ∀ c, ex c → c = q ++ [i] ∨ ex' c) (hexq : q ≠ [] → ex' q)
    {u : Sparse.Vertex Data} (hu : vertexAt q root = some u) :
    ∃ raw x, rawData u.desc F = some raw ∧ u.key = keyOf q ∧
      updateInnerVertex E (newPublicParams E α (F + 2)) env u.key u.data raw (decide (q.length + 1 = L)) i s
        = some (some (.key (keyOf q)), store E env (keyOf q) x s) ∧
      Inv E α F L T A ex' (store E env (keyOf q) x s).db := by
  obtain ⟨k1, k2, -⟩ := hm.inner q u hq hu
  have hframe : ∀ x r, r ≠ q → load E (store E env (keyOf q) x s).db (keyOf r) = load E s.db (keyOf r) := by
    intro x r hr
    exact load_congr E (store_db E env _ x s _ fun hc => hr (keyOf_injective hc))
  have hchild : ∀ j, q ++ [j] ≠ q := by
    intro j hc
    have := congrArg List.length hc
    simp at this
  have hinj : ∀ r j, r ++ [j] = q ++ [i] → r = q ∧ j = i := by
    intro r j hc
    have := List.append_inj' hc rfl
    exact ⟨this.1, by simpa using this.2⟩
  have hnot : ∀ r j, ¬ ex' (r ++ [j]) → r ++ [j] ≠ q := by
    rintro r j hn rfl
    exact hn (hexq (by simp))
  -- the vertices other than `q`
  have hleaf : ∀ x r, r ≠ q → r.length + 1 = L → T r → ∃ bf vals V,
      load E (store E env (keyOf q) x s).db (keyOf r) = some (leafVertex F bf vals V) ∧
      (∀ i, (vals i).isSome = true ↔ T (r ++ [i])) ∧
      ∀ i, T (r ++ [i]) → ¬ ex' (r ++ [i]) → vals i = some (intToZr (A (r ++ [i]))) := by
    intro x r hr hl hTr
    obtain ⟨bf, vals, V, h1, h2, h3⟩ := h.leaf r hl hTr
    refine ⟨bf, vals, V, by rw [hframe x r hr, h1], h2, fun j hj hn => h3 j hj fun hc => ?_⟩
    rcases hex _ hc with h4 | h4
    · exact hr (hinj _ _ h4).1
    · exact hn h4
  have hinner : ∀ x r, r ≠ q → r.length + 1 < L → T r → ∃ bf vals digs,
      load E (store E env (keyOf q) x s).db (keyOf r) = some (innerVertex E α F bf vals digs) ∧
      (∀ i, (vals i).isSome = true ↔ T (r ++ [i])) ∧ (∀ i, (digs i).isSome = true ↔ T (r ++ [i])) ∧
      ∀ i, T (r ++ [i]) → ¬ ex' (r ++ [i]) →
        ∃ y, load E (store E env (keyOf q) x s).db (keyOf (r ++ [i])) = some y ∧ vals i = some y.sum ∧
          digs i = some (dig E y) := by
    intro x r hr hl hTr
    obtain ⟨bf, vals, digs, h1, h2, h3, h4⟩ := h.inner r hl hTr
    refine ⟨bf, vals, digs, by rw [hframe x r hr, h1], h2, h3, fun j hj hn => ?_⟩
    rw [hframe x _ (hnot r j hn)]
    refine h4 j hj fun hc => ?_
    rcases hex _ hc with h5 | h5
    · exact hr (hinj _ _ h5).1
    · exact hn h5
  by_cases hl : q.length + 1 = L
  · obtain ⟨bf, vals, V, h1, h2, h3⟩ := h.leaf q hl hTq
    obtain ⟨f, r1, r2, r3, -⟩ := hm.raw hq hT hu
    obtain ⟨V', hup⟩ : ∃ V', updateLayerAboveLeaves E (newPublicParams E α (F + 2)) env (keyOf q) (some (.key (keyOf q)))
        ((List.range F).map f) i s = some (some (.key (keyOf q)), store E env (keyOf q)
          (leafVertex F bf (Function.update vals i (some (intToZr (A (q ++ [i]))))) V') s) :=
      ⟨_, updateLeaf_old E α F hF env (keyOf q) (.key (keyOf q)) f i r2 s bf vals V h1 _ (r3 hl)⟩
    refine ⟨_, leafVertex F bf (Function.update vals i (some (intToZr (A (q ++ [i]))))) V', r1, k1, ?_, ?_⟩
    · unfold updateInnerVertex
      rw [if_pos (by simpa using hl), k1, k2]
      exact hup
    · refine ⟨fun r hrl hr => ?_, fun r hrl hr => hinner _ r (by rintro rfl; omega) hrl hr⟩
      by_cases hrq : r = q
      · subst hrq
        refine ⟨_, _, _, load_store_self hE henv _ _ s, fun j => ?_, fun j hj hn => ?_⟩
        · by_cases hji : j = i
          · subst hji; simp [hT]
          · rw [Function.update_of_ne hji]; exact h2 j
        · by_cases hji : j = i
          · subst hji; rw [Function.update_self]
          · rw [Function.update_of_ne hji]
            refine h3 j hj fun hc => ?_
            rcases hex _ hc with h5 | h5
            · exact hji (hinj _ _ h5).2
            · exact hn h5
      · exact hleaf _ r hrq hrl hr
  · have hl' : q.length + 1 < L := by omega
    obtain ⟨bf, vals, digs, h1, h2, h3, h4⟩ := h.inner q hl' hTq
    obtain ⟨y, hy⟩ := h.stored (q ++ [i]) (by simpa using hl') hT
    have hvd : ∀ i, (vals i).isSome = (digs i).isSome := fun j => Bool.eq_iff_iff.2 ((h2 j).trans (h3 j).symm)
    obtain ⟨raw, r1, hup⟩ := call_inner hE env hF hm hl' hT hu h1 hvd hy
    refine ⟨raw, _, r1, k1, by rw [decide_eq_false hl]; exact hup, ?_⟩
    refine ⟨fun r hrl hr => hleaf _ r (by rintro rfl; omega) hrl hr, fun r hrl hr => ?_⟩
    by_cases hrq : r = q
    · subst hrq
      refine ⟨_, _, _, load_store_self hE henv _ _ s, fun j => ?_, fun j => ?_, fun j hj hn => ?_⟩
      · by_cases hji : j = i
        · subst hji; simp [hT]
        · rw [Function.update_of_ne hji]; exact h2 j
      · by_cases hji : j = i
        · subst hji; simp [hT]
        · rw [Function.update_of_ne hji]; exact h3 j
      · rw [hframe _ _ (hchild j)]
        by_cases hji : j = i
        · subst hji
          exact ⟨y, hy, by rw [Function.update_self], by rw [Function.update_self]⟩
        · rw [Function.update_of_ne hji, Function.update_of_ne hji]
          refine h4 j hj fun hc => ?_
          rcases hex _ hc with h5 | h5
          · exact hji (hinj _ _ h5).2
          · exact hn h5
    · exact hinner _ r hrq hrl hr

/-- The vertices that may differ from their parent's entry: for each writer the one it wrote last. -/
def Fresher (L : ℕ) (ws : List Writer) (c : List ℕ) : Prop := ∃ w ∈ ws, c = w.path.take (L - w.done)

theorem run_cons (E : Curve G1 G2 GT) (PP : PP G1 G2 GT) (env : Env) (F : ℕ) (r : Running)
    (e : Event) (es : List Event) :
    r.run E PP env F (e :: es) = (r.step E PP env F e).bind fun r' => r'.run E PP env F es := rfl

theorem run_append (E : Curve G1 G2 GT) (PP : PP G1 G2 GT) (env : Env) (F : ℕ) (r : Running)
    (es es' : List Event) :
    r.run E PP env F (es ++ es') = (r.run E PP env F es).bind fun r' => r'.run E PP env F es' := by
  unfold Running.run
  rw [List.foldlM_append]
  rfl

/-- A call of the callback up to its write. -/
theorem step_reads {PP : PP G1 G2 GT} {env : Env} {r : Running} {i : ℕ} {w : Writer} (hw : r.writers[i]? = some w)
    (hst : w.started = true)
    (hp : w.pending = none) (hd : w.done < w.path.length) {q : List ℕ} {j : ℕ} {rest : List ℕ} (hq : w.path = q ++ j :: rest)
    (hrest : rest.length = w.done) {u : Sparse.Vertex Data} (hu : vertexAt q r.root = some u) (hk : u.key = keyOf q)
    {raw : List (Option Data)} (hraw : rawData u.desc F = some raw) {d : Option Data} {x : Vertex G1}
    (hc : updateInnerVertex E PP env u.key u.data raw (decide (w.done = 0)) j r.s
      = some (d, store E env (keyOf q) x r.s)) :
    r.step E PP env F (.reads i) = some
      { r with writers := r.writers.set i { w with pending := some (keyOf q, (store E env (keyOf q) x r.s).db (keyOf q)) }
               s := { r.s with tick := (store E env (keyOf q) x r.s).tick } } := by
  have hl : w.path.length - 1 - w.done = q.length := by rw [hq]; simp; omega
  have ht : w.path.take q.length = q := by rw [hq]; simp
  have hi : w.path[q.length]? = some j := by rw [hq]; simp
  unfold Running.step
  refine obind_step hw ?_
  rw [if_neg (by rw [hp, hst]; simpa using hd)]
  dsimp only
  rw [hl, ht]
  refine obind_step hu (obind_step hraw (obind_step hi (obind_step hc ?_)))
  rw [hk]
  rfl

theorem step_writes {PP : PP G1 G2 GT} {env : Env} {r : Running} {i : ℕ} {w : Writer} (hw : r.writers[i]? = some w)
    {k : Str} {b : Bytes} (hp : w.pending = some (k, b)) :
    r.step E PP env F (.writes i) = some
      { r with writers := r.writers.set i { w with done := w.done + 1, pending := none }
               s := { r.s with db := r.s.db.put k b } } := by
  unfold Running.step
  exact obind_step hw (obind_step hp rfl)

theorem step_sets {PP : PP G1 G2 GT} {env : Env} {r : Running} {i : ℕ} {w : Writer} (hw : r.writers[i]? = some w)
    (hst : w.started = false) :
    r.step E PP env F (.sets i) = some
      { r with writers := r.writers.set i { w with started := true }
               root := setLeaf (.amount w.amount) w.path r.root } := by
  unfold Running.step
  refine obind_step hw ?_
  rw [hst]
  rfl

theorem store_put (env : Env) (k : Str) (x : Vertex G1) (s : State) :
    s.db.put k ((store E env k x s).db k) = (store E env k x s).db := by
  funext k'
  by_cases h : k' = k
  · subst h; simp [Db.put]
  · rw [store_db E env _ _ _ _ h]; simp [Db.put, h]

/-- Setting a leaf changes no vertex but the leaf. -/
theorem setLeaf_at (d : Data) (p : List ℕ) (v : Sparse.Vertex Data) (hp : (vertexAt p v).isSome) (q : List ℕ) :
    (setLeaf d p v).key = v.key ∧
    ((vertexAt q (setLeaf d p v) = none ∧ vertexAt q v = none) ∨
    ∃ u' u, vertexAt q (setLeaf d p v) = some u' ∧ vertexAt q v = some u ∧ u'.key = u.key ∧
      u'.data = if q = p then some d else u.data) := by
  induction p generalizing v q with
  | nil =>
    refine ⟨rfl, ?_⟩
    cases q with
    | nil => exact Or.inr ⟨_, _, rfl, rfl, rfl, rfl⟩
    | cons a t =>
      have e : vertexAt (a :: t) (setLeaf d [] v) = vertexAt (a :: t) v := rfl
      rw [e]
      cases hc : vertexAt (a :: t) v with
      | none => exact Or.inl ⟨rfl, rfl⟩
      | some u => exact Or.inr ⟨u, u, rfl, rfl, rfl, by rw [if_neg (by simp)]⟩
  | cons b rest ih =>
    rw [vertexAt] at hp
    cases hd : descGet v.desc b with
    | none => rw [hd] at hp; simp at hp
    | some w =>
      rw [hd, Option.bind_some] at hp
      have e : setLeaf d (b :: rest) v = .mk v.key v.data (descSet v.desc b (setLeaf d rest w)) := by
        rw [setLeaf, hd]
      rw [e]
      refine ⟨rfl, ?_⟩
      cases q with
      | nil => exact Or.inr ⟨_, _, rfl, rfl, rfl, by rw [if_neg (by simp)]; rfl⟩
      | cons a t =>
        rw [vertexAt, vertexAt]
        have e2 : (Sparse.Vertex.mk v.key v.data (descSet v.desc b (setLeaf d rest w))).desc
          = descSet v.desc b (setLeaf d rest w) := rfl
        rw [e2, descGet_descSet]
        by_cases hab : b = a
        · subst hab
          rw [if_pos rfl, hd, Option.bind_some, Option.bind_some]
          have := (ih w hp t).2
          simpa using this
        · rw [if_neg hab]
          cases hc : (descGet v.desc a).bind (vertexAt t) with
          | none => exact Or.inl ⟨rfl, rfl⟩
          | some u =>
            refine Or.inr ⟨u, u, rfl, rfl, rfl, ?_⟩
            rw [if_neg (by simp [Ne.symm hab])]

theorem Mem.set (hm : Mem F L T A root) {p : List ℕ} (hp : p.length = L) (hT : T p) (n : ℤ) :
    Mem F L T (Function.update A p n) (setLeaf (.amount n) p root) := by
  obtain ⟨w, hw⟩ := hm.there p hT
  have key := fun q => (setLeaf_at (.amount n) p root (by rw [hw]; rfl) q).2
  have hiff : ∀ q u', vertexAt q (setLeaf (.amount n) p root) = some u' → ∃ u, vertexAt q root = some u ∧ u'.key = u.key ∧
      u'.data = if q = p then some (.amount n) else u.data := by
    intro q u' hu'
    rcases key q with ⟨h1, -⟩ | ⟨v', v, h1, h2, h3, h4⟩
    · rw [h1] at hu'; simp at hu'
    · rw [h1, Option.some.injEq] at hu'
      subst hu'
      exact ⟨v, h2, h3, h4⟩
  constructor
  · intro q hq
    obtain ⟨u, hu⟩ := hm.there q hq
    rcases key q with ⟨-, h2⟩ | ⟨v', v, h1, -⟩
    · rw [hu] at h2; simp at h2
    · exact ⟨v', h1⟩
  · intro q u' hq hu'
    obtain ⟨u, h1, h2, h3⟩ := hiff q u' hu'
    obtain ⟨k1, k2, k3⟩ := hm.inner q u hq h1
    refine ⟨by rw [h2, k1], by rw [h3, if_neg (by rintro rfl; omega), k2], fun i w' hi => ?_⟩
    rw [← vertexAt_concat q i _ u' hu'] at hi
    obtain ⟨w, hw, -⟩ := hiff _ _ hi
    rw [vertexAt_concat q i _ u h1] at hw
    exact k3 i w hw
  · intro q u' hq hu'
    obtain ⟨u, h1, h2, h3⟩ := hiff q u' hu'
    rw [h3]
    by_cases hqp : q = p
    · subst hqp; rw [if_pos rfl, Function.update_self]
    · rw [if_neg hqp, Function.update_of_ne hqp, hm.leaf q u hq h1]

/-- What a writer still has to do. -/
def remaining (L i : ℕ) (w : Writer) : List Turn :=
  if w.started then List.replicate (L - w.done) (.calls i) else .sets i :: List.replicate L (.calls i)

/-- The state between two turns. -/
structure Between (E : Curve G1 G2 GT) (α : Zr) (F L : ℕ) (T : List ℕ → Prop) (A0 A : List ℕ → ℤ) (r : Running) : Prop where
  mem : Mem F L T A r.root
  inv : Inv E α F L T A (Fresher L r.writers) r.s.db
  writer : ∀ w ∈ r.writers, w.pending = none ∧ w.path.length = L ∧ w.done ≤ L ∧ T w.path ∧ (w.started = false → w.done = 0)
  nodup : (r.writers.map Writer.path).Nodup
  set : ∀ w ∈ r.writers, w.started = true → A w.path = w.amount
  unset : ∀ q, (∀ w ∈ r.writers, w.started = true → w.path ≠ q) → A q = A0 q

/-- One turn. -/
theorem Between.turn (hE : E.Lawful) {env : Env} (henv : env.Lawful) (hF : F + 2 ≤ 65536)
    (hpre : ∀ q p, q <+: p → T p → T q) {A0 : List ℕ → ℤ} {r : Running} (h : Between E α F L T A0 A r) (t : Turn)
    {w : Writer} (hw : r.writers[t.writer]? = some w) (rest : List Turn) (hrem : remaining L t.writer w = t :: rest) :
    ∃ r' A' w', r.run E (newPublicParams E α (F + 2)) env F t.events = some r' ∧ Between E α F L T A0 A' r' ∧
      r'.writers = r.writers.set t.writer w' ∧ w'.path = w.path ∧ w'.amount = w.amount ∧
      remaining L t.writer w' = rest ∧ w.done ≤ w'.done ∧
      ∀ q, (∀ d, L - w'.done ≤ d → q ≠ w.path.take d) → r'.s.db (keyOf q) = r.s.db (keyOf q) := by
  have hmem := List.mem_of_getElem? hw
  obtain ⟨hpend, hlen, hdL, hTw, hd0⟩ := h.writer w hmem
  have hset : ∀ (i : ℕ) (w' : Writer) x, x ∈ r.writers.set i w' → x ∈ r.writers ∨ x = w' := fun i w' x hx =>
    List.mem_or_eq_of_mem_set hx
  have hlt : t.writer < r.writers.length := by
    rw [List.getElem?_eq_some_iff] at hw
    exact hw.1
  have hnd : ∀ w', w'.path = w.path → ((r.writers.set t.writer w').map Writer.path).Nodup := by
    intro w' hw'
    have e : (r.writers.set t.writer w').map Writer.path = r.writers.map Writer.path := by
      rw [List.map_set, hw']
      apply List.ext_getElem?
      intro k
      by_cases hk : k = t.writer
      · subst hk
        rw [List.getElem?_set_self (by simpa using hlt), List.getElem?_map, hw]; rfl
      · rw [List.getElem?_set_ne (Ne.symm hk)]
    rw [e]; exact h.nodup
  -- another writer has another path
  have hother : ∀ i' w2, r.writers[i']? = some w2 → w2.path = w.path → i' = t.writer := by
    intro i' w2 hi' hp
    have h1 : (r.writers.map Writer.path)[i']? = some w.path := by rw [List.getElem?_map, hi', Option.map_some, hp]
    have h2 : (r.writers.map Writer.path)[t.writer]? = some w.path := by rw [List.getElem?_map, hw, Option.map_some]
    have hi'lt : i' < (r.writers.map Writer.path).length := (List.getElem?_eq_some_iff.1 h1).1
    exact (List.getElem?_inj hi'lt h.nodup).1 (h1.trans h2.symm)
  have hmemset : ∀ (w' x : Writer), x ∈ r.writers.set t.writer w' → x = w' ∨ (x ∈ r.writers ∧ x.path ≠ w.path) := by
    intro w' x hx
    obtain ⟨i', hi'⟩ := List.mem_iff_getElem?.1 hx
    by_cases hii : i' = t.writer
    · subst hii
      rw [List.getElem?_set_self hlt, Option.some.injEq] at hi'
      exact Or.inl hi'.symm
    · rw [List.getElem?_set_ne (Ne.symm hii)] at hi'
      exact Or.inr ⟨List.mem_iff_getElem?.2 ⟨i', hi'⟩, fun hc => hii (hother i' x hi' hc)⟩
  have hmemset' : ∀ (w' x : Writer), x ∈ r.writers → x.path ≠ w.path → x ∈ r.writers.set t.writer w' := by
    intro w' x hx hne
    obtain ⟨i', hi'⟩ := List.mem_iff_getElem?.1 hx
    have hii : i' ≠ t.writer := by
      rintro rfl
      rw [hw, Option.some.injEq] at hi'
      exact hne (by rw [hi'])
    exact List.mem_iff_getElem?.2 ⟨i', by rw [List.getElem?_set_ne (Ne.symm hii)]; exact hi'⟩
  have hself : ∀ x ∈ r.writers, x.path = w.path → x = w := by
    intro x hx hp
    obtain ⟨i', hi'⟩ := List.mem_iff_getElem?.1 hx
    have := hother i' x hi' hp
    subst this
    rw [hw, Option.some.injEq] at hi'
    exact hi'.symm
  cases hst : w.started with
  | false =>
    have ht : t = .sets t.writer ∧ rest = List.replicate L (.calls t.writer) := by
      unfold remaining at hrem
      rw [hst, if_neg (by simp), List.cons.injEq] at hrem
      exact ⟨hrem.1.symm, hrem.2.symm⟩
    have hev : t.events = [.sets t.writer] := by rw [ht.1]; rfl
    have hdz := hd0 hst
    refine ⟨{ r with writers := r.writers.set t.writer { w with started := true }
                     root := setLeaf (.amount w.amount) w.path r.root },
      Function.update A w.path w.amount, { w with started := true }, ?_, ?_, rfl, rfl, rfl, ?_, le_rfl, fun _ _ => rfl⟩
    · rw [hev, run_cons, step_sets hw hst, Option.bind_some]
      rfl
    · refine ⟨h.mem.set hlen hTw _, ?_, ?_, hnd _ rfl, ?_, ?_⟩
      · -- only the entry of the leaf can differ
        have hex : ∀ c, Fresher L r.writers c → Fresher L (r.writers.set t.writer { w with started := true }) c := by
          rintro c ⟨x, hx, rfl⟩
          by_cases hxp : x.path = w.path
          · have := hself x hx hxp
            subst this
            exact ⟨_, List.mem_set hlt _, rfl⟩
          · exact ⟨x, hmemset' _ x hx hxp, rfl⟩
        have hexw : Fresher L (r.writers.set t.writer { w with started := true }) w.path :=
          ⟨_, List.mem_set hlt _, by
            show w.path = w.path.take (L - w.done)
            rw [hdz, Nat.sub_zero, ← hlen, List.take_length]⟩
        constructor
        · intro q hq hTq
          obtain ⟨bf, vals, V, h1, h2, h3⟩ := h.inv.leaf q hq hTq
          refine ⟨bf, vals, V, h1, h2, fun i hi hn => ?_⟩
          rw [Function.update_of_ne (by rintro hc; rw [hc] at hn; exact hn hexw)]
          exact h3 i hi fun hc => hn (hex _ hc)
        · intro q hq hTq
          obtain ⟨bf, vals, digs, h1, h2, h3, h4⟩ := h.inv.inner q hq hTq
          exact ⟨bf, vals, digs, h1, h2, h3, fun i hi hn => h4 i hi fun hc => hn (hex _ hc)⟩
      · intro x hx
        rcases hset _ _ _ hx with hx | rfl
        · exact h.writer x hx
        · exact ⟨hpend, hlen, hdL, hTw, fun hc => by simp at hc⟩
      · intro x hx hxs
        rcases hmemset _ _ hx with rfl | ⟨hx, hne⟩
        · exact Function.update_self ..
        · rw [Function.update_of_ne hne]; exact h.set x hx hxs
      · intro q hq
        have hqw : q ≠ w.path := fun hc => hq _ (List.mem_set hlt _) rfl hc.symm
        rw [Function.update_of_ne hqw]
        refine h.unset q fun x hx hxs => ?_
        by_cases hxp : x.path = w.path
        · rw [hxp]; exact Ne.symm hqw
        · exact hq x (hmemset' _ x hx hxp) hxs
    · rw [ht.2]
      show (if true = true then List.replicate (L - w.done) _ else _) = _
      rw [hdz]
      rfl
  | true =>
    have hrem' : List.replicate (L - w.done) (Turn.calls t.writer) = t :: rest := by
      unfold remaining at hrem
      rw [hst, if_pos rfl] at hrem
      exact hrem
    have hdone : w.done < L := by
      by_contra hc
      rw [show L - w.done = 0 by omega] at hrem'
      simp at hrem'
    have ht : t = .calls t.writer ∧ rest = List.replicate (L - (w.done + 1)) (.calls t.writer) := by
      rw [show L - w.done = (L - (w.done + 1)) + 1 by omega, List.replicate_succ, List.cons.injEq] at hrem'
      exact ⟨hrem'.1.symm, hrem'.2.symm⟩
    have hev : t.events = [.reads t.writer, .writes t.writer] := by rw [ht.1]; rfl
    obtain ⟨q, j, tl, hq, htl⟩ : ∃ q j tl, w.path = q ++ j :: tl ∧ tl.length = w.done := by
      refine ⟨w.path.take (L - 1 - w.done), w.path[L - 1 - w.done]'(by omega), w.path.drop (L - 1 - w.done + 1), ?_, ?_⟩
      · rw [List.getElem_cons_drop, List.take_append_drop]
      · rw [List.length_drop]; omega
    have hql : q.length + 1 + w.done = L := by
      have := congrArg List.length hq
      simp at this
      omega
    have hTj : T (q ++ [j]) := hpre _ _ ⟨tl, by rw [hq]; simp⟩ hTw
    have hTq : T q := hpre _ _ ⟨[j], rfl⟩ hTj
    obtain ⟨u, hu⟩ := h.mem.there q hTq
    have htake0 : w.path.take (L - w.done) = q ++ [j] := by
      have e : L - w.done = (q ++ [j]).length := by simp; omega
      rw [e, hq, show q ++ j :: tl = (q ++ [j]) ++ tl by simp, List.take_left]
    have htake1 : w.path.take (L - (w.done + 1)) = q := by
      have e : L - (w.done + 1) = q.length := by omega
      rw [e, hq, List.take_left]
    obtain ⟨raw, x, k1, k2, k3, k4⟩ := h.inv.call hE henv hF h.mem (q := q) (i := j) (by omega) hTj hTq
      (ex' := Fresher L (r.writers.set t.writer { w with done := w.done + 1, pending := none })) (by
        rintro c ⟨w', hw', rfl⟩
        by_cases hxp : w'.path = w.path
        · have := hself w' hw' hxp
          subst this
          exact Or.inl htake0
        · exact Or.inr ⟨w', hmemset' _ w' hw' hxp, rfl⟩) (fun _ => ⟨_, List.mem_set hlt _, htake1.symm⟩) hu
    have hk3 : decide (q.length + 1 = L) = decide (w.done = 0) := by
      rw [decide_eq_decide]; omega
    rw [hk3] at k3
    have s1 := step_reads hw hst hpend (by omega) hq htl hu k2 k1 k3
    let w1 : Writer := { w with pending := some (keyOf q, (store E env (keyOf q) x r.s).db (keyOf q)) }
    have s2 := step_writes (E := E) (F := F) (PP := newPublicParams E α (F + 2)) (env := env)
      (r := { r with writers := r.writers.set t.writer w1, s := { r.s with tick := (store E env (keyOf q) x r.s).tick } })
      (i := t.writer) (w := w1) (by simp [hlt]) rfl
    dsimp only at s2
    rw [List.set_set, store_put] at s2
    refine ⟨{ writers := r.writers.set t.writer { w with done := w.done + 1, pending := none }, root := r.root
              s := store E env (keyOf q) x r.s }, A, { w with done := w.done + 1, pending := none }, ?_, ?_, rfl, rfl, rfl, ?_,
      Nat.le_succ _, ?_⟩
    · rw [hev, run_cons, s1, Option.bind_some, run_cons]
      have hs2 : ({ r with writers := r.writers.set t.writer w1, s := { r.s with tick := (store E env (keyOf q) x r.s).tick } } :
          Running).step E (newPublicParams E α (F + 2)) env F (.writes t.writer)
          = some { writers := r.writers.set t.writer { w with done := w.done + 1, pending := none }, root := r.root
                   s := store E env (keyOf q) x r.s } := s2
      rw [hs2, Option.bind_some]
      rfl
    · refine ⟨h.mem, k4, ?_, hnd _ rfl, ?_, ?_⟩
      · intro w' hw'
        rcases hset _ _ _ hw' with hx | rfl
        · exact h.writer w' hx
        · exact ⟨rfl, hlen, by show w.done + 1 ≤ L; omega, hTw, fun hc => by rw [hst] at hc; simp at hc⟩
      · intro w' hw' hs'
        rcases hset _ _ _ hw' with hx | rfl
        · exact h.set w' hx hs'
        · exact h.set w hmem hst
      · intro q' hq'
        refine h.unset q' fun x hx hxs => ?_
        by_cases hxp : x.path = w.path
        · rw [hxp]
          exact hq' { w with done := w.done + 1, pending := none } (List.mem_set hlt _) hst
        · exact hq' x (hmemset' _ x hx hxp) hxs
    · rw [ht.2]
      show (if w.started = true then List.replicate (L - (w.done + 1)) _ else _) = _
      rw [hst, if_pos rfl]
    · intro q' hq'
      refine store_db E env _ x r.s _ fun hc => ?_
      have hqq := keyOf_injective hc
      subst hqq
      exact hq' _ le_rfl htake1.symm

/-- Turns in any order that keeps each writer's own. -/
theorem Between.turns (hE : E.Lawful) {env : Env} (henv : env.Lawful) (hF : F + 2 ≤ 65536)
    (hpre : ∀ q p, q <+: p → T p → T q) {A0 : List ℕ → ℤ} (turns : List Turn) {r : Running} (h : Between E α F L T A0 A r)
    (hord : ∀ t ∈ turns, t.writer < r.writers.length)
    (hrem : ∀ i w, r.writers[i]? = some w → ∃ rest, turns.filter (fun t => decide (t.writer = i)) ++ rest = remaining L i w) :
    ∃ r' A', r.run E (newPublicParams E α (F + 2)) env F (eventsOf turns) = some r' ∧ Between E α F L T A0 A' r' ∧
      r'.writers.length = r.writers.length ∧
      (∀ i w, r.writers[i]? = some w → ∃ w', r'.writers[i]? = some w' ∧ w'.path = w.path ∧ w'.amount = w.amount ∧
        turns.filter (fun t => decide (t.writer = i)) ++ remaining L i w' = remaining L i w) ∧
      ∀ q, (∀ w ∈ r'.writers, ∀ d, L - w.done ≤ d → q ≠ w.path.take d) → r'.s.db (keyOf q) = r.s.db (keyOf q) := by
  induction turns generalizing r A with
  | nil => exact ⟨r, A, rfl, h, rfl, fun i w hw => ⟨w, hw, rfl, rfl, rfl⟩, fun _ _ => rfl⟩
  | cons t turns ih =>
    have hlt := hord t (by simp)
    obtain ⟨w, hw⟩ : ∃ w, r.writers[t.writer]? = some w := ⟨_, List.getElem?_eq_getElem hlt⟩
    obtain ⟨rest, hrest⟩ := hrem _ w hw
    rw [List.filter_cons_of_pos (by simp), List.cons_append] at hrest
    obtain ⟨r1, A1, w1, c1, c2, c3, c4, c5, c6, c7, c8⟩ := h.turn hE henv hF hpre t hw _ hrest.symm
    have hget : ∀ i w, r1.writers[i]? = some w → (i = t.writer ∧ w = w1) ∨ (i ≠ t.writer ∧ r.writers[i]? = some w) := by
      intro i w' hw'
      rw [c3] at hw'
      by_cases hi : i = t.writer
      · subst hi
        rw [List.getElem?_set_self hlt, Option.some.injEq] at hw'
        exact Or.inl ⟨rfl, hw'.symm⟩
      · rw [List.getElem?_set_ne (Ne.symm hi)] at hw'
        exact Or.inr ⟨hi, hw'⟩
    obtain ⟨r2, A2, d1, d2, d3, d4, d5⟩ := ih c2 (fun t' ht' => by
        rw [c3, List.length_set]; exact hord t' (by simp [ht'])) (by
      intro i w' hw'
      rcases hget i w' hw' with ⟨rfl, rfl⟩ | ⟨hi, hw'⟩
      · exact ⟨rest, c6.symm⟩
      · obtain ⟨rest', hr'⟩ := hrem i w' hw'
        rw [List.filter_cons_of_neg (by simpa using Ne.symm hi)] at hr'
        exact ⟨rest', hr'⟩)
    refine ⟨r2, A2, ?_, d2, by rw [d3, c3, List.length_set], ?_, ?_⟩
    · have : eventsOf (t :: turns) = t.events ++ eventsOf turns := rfl
      rw [this, run_append, c1, Option.bind_some]
      exact d1
    · intro i w' hw'
      by_cases hi : i = t.writer
      · subst hi
        rw [hw, Option.some.injEq] at hw'
        subst hw'
        obtain ⟨w2, e1, e2, e3, e4⟩ := d4 t.writer w1 (by rw [c3, List.getElem?_set_self hlt])
        refine ⟨w2, e1, by rw [e2, c4], by rw [e3, c5], ?_⟩
        rw [List.filter_cons_of_pos (by simp), List.cons_append, e4, c6]
        exact hrest
      · obtain ⟨w2, e1, e2, e3, e4⟩ := d4 i w' (by rw [c3, List.getElem?_set_ne (Ne.symm hi)]; exact hw')
        refine ⟨w2, e1, e2, e3, ?_⟩
        rw [List.filter_cons_of_neg (by simpa using Ne.symm hi)]
        exact e4
    · intro q hq
      rw [d5 q hq, c8]
      intro d hd
      obtain ⟨w2, e1, e2, e3, e4⟩ := d4 t.writer w1 (by rw [c3, List.getElem?_set_self hlt])
      have hm := List.mem_of_getElem? e1
      have := hq w2 hm d (by
        -- a writer never takes back what it has written
        have hlen := congrArg List.length e4
        rw [List.length_append] at hlen
        obtain ⟨-, -, x3, -, x5⟩ := c2.writer w1 (by rw [c3]; exact List.mem_set hlt _)
        obtain ⟨-, -, y3, -, y5⟩ := d2.writer w2 hm
        have hr1 : (remaining L t.writer w1).length = if w1.started then L - w1.done else L + 1 := by
          unfold remaining; split_ifs <;> simp
        have hr2 : (remaining L t.writer w2).length = if w2.started then L - w2.done else L + 1 := by
          unfold remaining; split_ifs <;> simp
        rw [hr1, hr2] at hlen
        cases h1 : w1.started with
        | false =>
          have := x5 h1
          omega
        | true =>
          rw [h1, if_pos rfl] at hlen
          cases h2 : w2.started with
          | false => rw [h2, if_neg (by simp)] at hlen; omega
          | true => rw [h2, if_pos rfl] at hlen; omega)
      rw [e2, c4] at this
      exact this

end call

end PoL.Verkle
