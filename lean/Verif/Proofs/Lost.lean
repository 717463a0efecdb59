import Verif.Spec.Lost
import Verif.Proofs.VerkleUpdate

/-! Runs over a database that lacks values. -/

set_option linter.unusedSectionVars false

namespace PoL.Pol
open Spec Verkle

/-- The second computation panics, or both return related results. -/
def Below {α β : Type} (R : α → β → Prop) (o : Option α) (o' : Option β) : Prop :=
  o' = none ∨ ∃ a b, o = some a ∧ o' = some b ∧ R a b

theorem below_bind {α β γ δ : Type} {R : α → β → Prop} {S : γ → δ → Prop} {o : Option α} {o' : Option β} (h : Below R o o')
    {f : α → Option γ} {g : β → Option δ} (hfg : ∀ a b, R a b → Below S (f a) (g b)) : Below S (o.bind f) (o'.bind g) := by
  rcases h with rfl | ⟨a, b, rfl, rfl, hab⟩
  · exact .inl rfl
  · exact hfg a b hab

theorem below_bind_eq {α γ δ : Type} {S : γ → δ → Prop} {o : Option α} {f : α → Option γ} {g : α → Option δ}
    (hfg : ∀ a, Below S (f a) (g a)) : Below S (o.bind f) (o.bind g) := by
  cases o with
  | none => exact .inl rfl
  | some a => exact hfg a

theorem below_some {α β : Type} {R : α → β → Prop} {a : α} {b : β} (h : R a b) : Below R (some a) (some b) :=
  .inr ⟨_, _, rfl, rfl, h⟩

theorem below_rfl {α : Type} (o : Option α) : Below Eq o o := by
  cases o with
  | none => exact .inl rfl
  | some a => exact below_some rfl

theorem below_eq {α γ δ : Type} {S : γ → δ → Prop} {o o' : Option α} (h : Below Eq o o') {f : α → Option γ} {g : α → Option δ}
    (hfg : ∀ a, Below S (f a) (g a)) : Below S (o.bind f) (o'.bind g) :=
  below_bind h fun a b hab => by subst hab; exact hfg a

theorem putAt_below {D σ τ : Type} {R : σ → τ → Prop} {u : Sparse.Update D σ} {u' : Sparse.Update D τ}
    (hu : ∀ key node raw b i s t, R s t → Below (fun x y => x.1 = y.1 ∧ R x.2 y.2) (u key node raw b i s) (u' key node raw b i t))
    (fanOut : ℕ) (data : Option D) : ∀ (path : List ℕ) (ps : Str) (v : Sparse.Vertex D) (s : σ) (t : τ), R s t →
      Below (fun x y => x.1 = y.1 ∧ R x.2 y.2) (Sparse.putAt fanOut u data path ps v s) (Sparse.putAt fanOut u' data path ps v t) := by
  intro path
  induction path with
  | nil => intro ps v s t hr; exact below_some ⟨rfl, hr⟩
  | cons p rest ih =>
    intro ps v s t hr
    simp only [Sparse.putAt]
    refine below_bind (ih (Sparse.childKey ps p) ((Sparse.descGet v.desc p).getD (.mk (Sparse.childKey ps p) none [])) s t hr) ?_
    rintro ⟨c, s'⟩ ⟨c', t'⟩ ⟨ec, hr'⟩
    dsimp only at ec
    subst ec
    dsimp only
    refine below_bind_eq fun raw => below_bind (hu v.key v.data raw rest.isEmpty p s' t' hr') ?_
    rintro ⟨d, s''⟩ ⟨d', t''⟩ ⟨ed, hr''⟩
    dsimp only at ed
    subst ed
    exact below_some ⟨rfl, hr''⟩

variable {G1 G2 GT : Type} [AddCommGroup G1] [Module Zr G1] [AddCommGroup G2] [Module Zr G2]
  [AddCommGroup GT] [Module Zr GT] [DecidableEq G1] [DecidableEq GT]

theorem fromBytes_nil (E : Curve G1 G2 GT) : Verkle.Vertex.fromBytes E [] = none := by
  unfold Verkle.Vertex.fromBytes
  have : Asn1.unmarshal [] = none := by decide
  rw [this]
  rfl

theorem _root_.PoL.Spec.MissingSome.vertex {db db' : Db} (h : MissingSome db db') (E : Curve G1 G2 GT) (k : Str) :
    Below Eq (Verkle.Vertex.fromBytes E (db k)) (Verkle.Vertex.fromBytes E (db' k)) := by
  rcases h k with h | h
  · rw [h, fromBytes_nil]
    exact .inl rfl
  · rw [h]
    exact below_rfl _

theorem _root_.PoL.Spec.MissingSome.fetch {db db' : Db} (h : MissingSome db db') (E : Curve G1 G2 GT) (d : Option Data) :
    Below Eq (fetchVertex E db d) (fetchVertex E db' d) := by
  unfold fetchVertex
  refine below_bind_eq fun d => below_bind_eq fun k => ?_
  rcases h k with h | h
  · rw [h]
    exact .inl rfl
  · rw [h]
    exact below_rfl _

theorem _root_.PoL.Spec.MissingSome.loop {db db' : Db} (h : MissingSome db db') (E : Curve G1 G2 GT) (l : List (Option Data)) (i : ℕ)
    (a : InnerAcc) : Below Eq (innerLoop E db l i a) (innerLoop E db' l i a) := by
  induction l generalizing i a with
  | nil => exact below_rfl _
  | cons d l ih =>
    cases d with
    | none => exact ih _ _
    | some d =>
      simp only [innerLoop]
      exact below_eq (h.fetch E _) fun v => below_bind_eq fun x => ih _ _

/-- The same number of writes, and a database that lacks values. -/
def StateBelow (s s' : State) : Prop := s.tick = s'.tick ∧ MissingSome s.db s'.db

theorem StateBelow.store {s s' : State} (h : StateBelow s s') (E : Curve G1 G2 GT) (env : Env) (key : Str) (v : Verkle.Vertex G1) :
    StateBelow (Verkle.store E env key v s) (Verkle.store E env key v s') := by
  refine ⟨congrArg (· + 1) h.1, fun k => ?_⟩
  by_cases hk : k = key
  · subst hk
    right
    simp [Verkle.store, Db.put, h.1]
  · rw [store_db E env key v s k hk, store_db E env key v s' k hk]
    exact h.2 k

theorem update_below (E : Curve G1 G2 GT) (env : Env) (PP : PP G1 G2 GT) (key : Str) (node : Option Data)
    (raw : List (Option Data)) (b : Bool) (i : ℕ) {s s' : State} (h : StateBelow s s') :
    Below (fun x y => x.1 = y.1 ∧ StateBelow x.2 y.2) (updateInnerVertex E PP env key node raw b i s)
      (updateInnerVertex E PP env key node raw b i s') := by
  have hst : ∀ v, Below (fun x y : Option Data × State => x.1 = y.1 ∧ StateBelow x.2 y.2)
      (some (some (.key key), Verkle.store E env key v s)) (some (some (.key key), Verkle.store E env key v s')) :=
    fun v => below_some ⟨rfl, h.store E env key v⟩
  unfold updateInnerVertex
  cases b with
  | true =>
    rw [if_pos rfl, if_pos rfl]
    unfold updateLayerAboveLeaves
    cases node with
    | none =>
      dsimp only
      rw [h.1]
      exact below_bind_eq fun a => below_bind_eq fun V => hst _
    | some d =>
      dsimp only
      exact below_eq (h.2.fetch E _) fun v => below_bind_eq fun o => below_bind_eq fun d => below_bind_eq fun n =>
        below_bind_eq fun V => below_bind_eq fun V' => hst _
  | false =>
    rw [if_neg (by simp), if_neg (by simp)]
    unfold updateInnerLayer
    cases node with
    | none =>
      dsimp only
      rw [h.1]
      exact below_eq (h.2.loop E _ _ _) fun a => below_bind_eq fun V => below_bind_eq fun W => hst _
    | some d =>
      dsimp only
      refine below_eq (h.2.fetch E _) fun v => below_bind_eq fun o => below_eq (h.2.fetch E _) fun dv =>
        below_bind_eq fun nd => below_bind_eq fun ds => ?_
      split_ifs
      · exact .inl rfl
      · exact below_bind_eq fun V => below_bind_eq fun W => hst _

/-- Sets that differ in missing values only. -/
structure SetBelow (ls ls' : LiabilitySet G1 G2 GT) : Prop where
  tree : ls.tree = ls'.tree
  pp : ls.pp = ls'.pp
  memRoot : ls.memRoot = ls'.memRoot
  s : StateBelow ls.s ls'.s

theorem SetBelow.set {ls ls' : LiabilitySet G1 G2 GT} (h : SetBelow ls ls') (E : Curve G1 G2 GT) (env : Env) (id : Str) (n : ℤ) :
    Below SetBelow (ls.set E env id n) (ls'.set E env id n) := by
  unfold LiabilitySet.set
  split_ifs
  · exact .inl rfl
  refine below_bind (R := fun x y => x.1 = y.1 ∧ StateBelow x.2 y.2) ?_ fun a b hab =>
    below_some ⟨hab.1, h.pp, h.memRoot, hab.2⟩
  rw [h.tree]
  unfold Verkle.Tree.put
  refine below_bind (R := fun x y => x.1.root = y.1.root ∧ StateBelow x.2 y.2) ?_ fun a b hab => ?_
  · unfold Sparse.Tree.put
    refine below_bind_eq fun p => ?_
    refine below_bind (putAt_below (R := StateBelow)
      (fun key node raw b i s t hst => update_below E env ls'.tree.PP key node raw b i hst) _ _ p [] _ _ _ h.s)
      fun a b hab => below_some ⟨?_, hab.2⟩
    show some a.1 = some b.1
    rw [hab.1]
  · refine below_some ⟨?_, hab.2⟩
    dsimp only
    rw [hab.1]

theorem mapM_below {α β : Type} (l : List α) (f g : α → Option β) (h : ∀ a, Below Eq (f a) (g a)) :
    Below Eq (l.mapM f) (l.mapM g) := by
  induction l with
  | nil => exact below_rfl _
  | cons a l ih =>
    rw [List.mapM_cons, List.mapM_cons]
    exact below_eq (h a) fun b => below_eq ih fun c => below_rfl _

theorem SetBelow.treeGet {ls ls' : LiabilitySet G1 G2 GT} (h : SetBelow ls ls') (E : Curve G1 G2 GT) (env : Env) (id : Str) :
    Below Eq (ls.tree.get E env id ls.s.db) (ls'.tree.get E env id ls'.s.db) := by
  rw [h.tree]
  unfold Verkle.Tree.get
  refine below_bind_eq fun o => ?_
  cases o with
  | none => exact below_rfl _
  | some o =>
    obtain ⟨n, path⟩ := o
    dsimp only
    exact below_eq (mapM_below _ _ _ fun u => below_bind_eq fun d => below_bind_eq fun k => h.s.2.vertex E k)
      fun vs => below_rfl _

theorem SetBelow.get {ls ls' : LiabilitySet G1 G2 GT} (h : SetBelow ls ls') (E : Curve G1 G2 GT) (env : Env) (id : Str) :
    Below Eq (ls.get E env id) (ls'.get E env id) := by
  unfold LiabilitySet.get
  exact below_eq (h.treeGet E env id) fun o => below_rfl _

theorem SetBelow.root {ls ls' : LiabilitySet G1 G2 GT} (h : SetBelow ls ls') (E : Curve G1 G2 GT) :
    Below (fun x y => x.1 = y.1 ∧ SetBelow x.2 y.2) (ls.root E) (ls'.root E) := by
  unfold LiabilitySet.root
  rw [h.tree]
  cases ls'.tree.root with
  | none => exact below_some ⟨rfl, h⟩
  | some r =>
    dsimp only
    refine below_bind_eq fun d => below_bind_eq fun key => ?_
    unfold memGet
    rw [h.memRoot]
    split_ifs with h1 h2
    · exact below_bind_eq fun v => below_some ⟨rfl, rfl, h.pp, rfl, h.s⟩
    all_goals
      dsimp only
      rcases h.s.2 key with h0 | h0
      · rw [h0, fromBytes_nil]
        exact .inl rfl
      · rw [h0]
        exact below_bind_eq fun v => below_some ⟨rfl, rfl, h.pp, rfl, h.s⟩

theorem SetBelow.proveTot {ls ls' : LiabilitySet G1 G2 GT} (h : SetBelow ls ls') (E : Curve G1 G2 GT) :
    Below Eq (ls.proveTot E) (ls'.proveTot E) := by
  unfold LiabilitySet.proveTot
  refine below_eq (h.s.2.vertex E []) fun v => ?_
  unfold LiabilitySet.openSumFromVertex
  rw [h.pp]
  exact below_rfl _

theorem SetBelow.proveLiability {ls ls' : LiabilitySet G1 G2 GT} (h : SetBelow ls ls') (E : Curve G1 G2 GT) (env : Env)
    (rnd : ProveRand) (id : Str) : Below Eq (ls.proveLiability E env rnd id) (ls'.proveLiability E env rnd id) := by
  unfold LiabilitySet.proveLiability LiabilitySet.openForClient proveLayer
  have e := h.treeGet E env id
  rw [← h.tree, ← h.pp]
  rw [← h.tree] at e
  exact below_bind_eq fun path => below_eq e fun o => below_rfl _

theorem _root_.PoL.Spec.SameButMissing.below {p q : Held G1 G2 GT} (h : SameButMissing p q) : SetBelow p.ls q.ls :=
  ⟨h.tree, h.setPP, h.memRoot, h.writes, h.db⟩

theorem _root_.PoL.Spec.SameButMissing.with {p q : Held G1 G2 GT} (h : SameButMissing p q) {ls ls' : LiabilitySet G1 G2 GT}
    (hl : SetBelow ls ls') : SameButMissing { p with ls := ls } { q with ls := ls' } :=
  ⟨hl.tree, hl.pp, hl.memRoot, hl.s.1, hl.s.2, h.pp, h.id2Path, h.roots, h.totals, h.proofs⟩

theorem apiCall_below (E : Curve G1 G2 GT) (env : Env) {p q : Held G1 G2 GT} (h : SameButMissing p q) (c : ApiCall) :
    Below (fun x y => SameButMissing x.1 y.1 ∧ x.2 = y.2) (apiCall E env p c) (apiCall E env q c) := by
  cases c with
  | set id a =>
    unfold apiCall
    exact below_bind (h.below.set E env id a) fun x y hxy => below_some ⟨h.with hxy, rfl⟩
  | get id =>
    unfold apiCall
    exact below_eq (h.below.get E env id) fun a => below_some ⟨h, rfl⟩
  | root =>
    unfold apiCall
    refine below_bind (h.below.root E) fun x y hxy => below_some ⟨?_, by rw [hxy.1]⟩
    refine ⟨hxy.2.tree, hxy.2.pp, hxy.2.memRoot, hxy.2.s.1, hxy.2.s.2, h.pp, h.id2Path, ?_, h.totals, h.proofs⟩
    dsimp only
    rw [h.roots, hxy.1]
  | proveTot =>
    unfold apiCall
    refine below_eq (h.below.proveTot E) fun a => below_some ⟨?_, rfl⟩
    exact ⟨h.tree, h.setPP, h.memRoot, h.writes, h.db, h.pp, h.id2Path, h.roots, by dsimp only; rw [h.totals], h.proofs⟩
  | proveLiability rnd id =>
    unfold apiCall
    refine below_eq (h.below.proveLiability E env rnd id) fun a => below_some ⟨?_, rfl⟩
    exact ⟨h.tree, h.setPP, h.memRoot, h.writes, h.db, h.pp, h.id2Path, h.roots, h.totals, by dsimp only; rw [h.proofs]⟩
  | verifyTotal i j =>
    unfold apiCall
    dsimp only
    rw [h.totals, h.roots, h.pp]
    exact below_bind_eq fun a => below_bind_eq fun b => below_bind_eq fun v => below_some ⟨h, rfl⟩
  | verifyLiability i j id =>
    unfold apiCall
    dsimp only
    rw [h.proofs, h.roots, h.pp, h.id2Path]
    exact below_bind_eq fun a => below_bind_eq fun b => below_bind_eq fun W => below_bind_eq fun v => below_some ⟨h, rfl⟩

theorem lossyCalls_below (E : Curve G1 G2 GT) (env : Env) {p q : Held G1 G2 GT} (h : SameButMissing p q) (cs : List LossyCall) :
    Below (fun x y => SameButMissing x.1 y.1 ∧ x.2 = y.2) (apiCalls E env p (callsOf cs)) (lossyCalls E env q cs) := by
  induction cs generalizing p q with
  | nil => exact below_some ⟨h, rfl⟩
  | cons c cs ih =>
    cases c with
    | call c =>
      show Below _ (apiCalls E env p (c :: callsOf cs)) _
      unfold apiCalls lossyCalls
      refine below_bind (apiCall_below E env h c) fun x y hxy => ?_
      refine below_bind (ih hxy.1) fun x' y' hxy' => below_some ⟨hxy'.1, ?_⟩
      rw [hxy.2, hxy'.2]
    | lose key =>
      show Below _ (apiCalls E env p (callsOf cs)) _
      unfold lossyCalls
      refine ih (h.with (ls := p.ls) ⟨h.tree, h.setPP, h.memRoot, h.writes, fun k => ?_⟩)
      by_cases hk : k = key
      · subst hk
        left
        simp [loseKey, Db.put]
      · simp only [loseKey, Db.put, if_neg hk]
        exact h.db k

end PoL.Pol
