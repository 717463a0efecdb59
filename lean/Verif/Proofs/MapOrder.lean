import Verif.Spec.MapOrder
import Verif.Proofs.PtrPol
import Verif.Proofs.VerkleUpdate

/-! Runs that differ in the order of map iterations. -/

set_option linter.unusedSectionVars false

namespace PoL.Pol
open Spec Verkle
open Ptr (ORel putAt_rel)

variable {G1 G2 GT : Type} [AddCommGroup G1] [Module Zr G1] [AddCommGroup G2] [Module Zr G2]
  [AddCommGroup GT] [Module Zr GT] [DecidableEq G1] [DecidableEq GT]

theorem orel_bind {α β γ δ : Type} {R : α → β → Prop} {S : γ → δ → Prop} {o : Option α} {o' : Option β} (h : ORel R o o')
    {f : α → Option γ} {g : β → Option δ} (hfg : ∀ a b, R a b → ORel S (f a) (g b)) : ORel S (o.bind f) (o'.bind g) := by
  rcases h with ⟨rfl, rfl⟩ | ⟨a, b, rfl, rfl, hab⟩
  · exact .inl ⟨rfl, rfl⟩
  · exact hfg a b hab

theorem orel_bind_eq {α γ δ : Type} {S : γ → δ → Prop} {o : Option α} {f : α → Option γ} {g : α → Option δ}
    (hfg : ∀ a, ORel S (f a) (g a)) : ORel S (o.bind f) (o.bind g) := by
  cases o with
  | none => exact .inl ⟨rfl, rfl⟩
  | some a => exact hfg a

theorem orel_some {α β : Type} {R : α → β → Prop} {a : α} {b : β} (h : R a b) : ORel R (some a) (some b) :=
  .inr ⟨_, _, rfl, rfl, h⟩

theorem orel_eq {α : Type} (o : Option α) : ORel Eq o o := by
  cases o with
  | none => exact .inl ⟨rfl, rfl⟩
  | some a => exact .inr ⟨a, a, rfl, rfl, rfl⟩

/-- The same number of writes, the same vertices. -/
def StateAlike (E : Curve G1 G2 GT) (s s' : State) : Prop := s.tick = s'.tick ∧ SameVertices E s.db s'.db

theorem _root_.PoL.Spec.SameVertices.fetch {E : Curve G1 G2 GT} {db db' : Db} (h : SameVertices E db db') (d : Option Data) :
    fetchVertex E db d = fetchVertex E db' d := by
  unfold fetchVertex
  cases d with
  | none => rfl
  | some d =>
    cases hk : d.str with
    | none => simp [hk]
    | some k =>
      simp only [Option.bind_eq_bind, Option.bind_some, hk]
      by_cases hl : (db k).length = 0
      · rw [if_pos hl, if_pos ((h k).missing.1 hl)]
      · rw [if_neg hl, if_neg fun hc => hl ((h k).missing.2 hc), (h k).vertex]

theorem _root_.PoL.Spec.SameVertices.loop {E : Curve G1 G2 GT} {db db' : Db} (h : SameVertices E db db') (l : List (Option Data)) (i : ℕ)
    (a : InnerAcc) : innerLoop E db l i a = innerLoop E db' l i a := by
  induction l generalizing i a with
  | nil => rfl
  | cons d l ih =>
    cases d with
    | none => exact ih _ _
    | some d =>
      simp only [innerLoop]
      rw [h.fetch]
      simp only [ih]

theorem StateAlike.store {E : Curve G1 G2 GT} (hE : E.Lawful) {env env' : Env} (henv : env.Lawful) (henv' : env'.Lawful)
    {s s' : State} (h : StateAlike E s s') (key : Str) (v : Verkle.Vertex G1) :
    StateAlike E (store E env key v s) (store E env' key v s') := by
  refine ⟨congrArg (· + 1) h.1, fun k => ?_⟩
  by_cases hk : k = key
  · subst hk
    have e : ∀ (env : Env) (s : State), (Verkle.store E env k v s).db k
      = v.bytes E (env.orderDigests s.tick v.digests) (env.orderValues s.tick v.values) := by
      intro env s
      simp [Verkle.store, Db.put]
    rw [e, e]
    refine ⟨?_, ?_⟩
    · simp [bytes_ne_nil]
    · rw [fromBytes_bytes hE v _ _ (henv.digests_mem _ _) (henv.values_mem _ _) (henv.digests_nodup _ _) (henv.values_nodup _ _),
        fromBytes_bytes hE v _ _ (henv'.digests_mem _ _) (henv'.values_mem _ _) (henv'.digests_nodup _ _)
          (henv'.values_nodup _ _)]
  · rw [store_db E env key v s k hk, store_db E env' key v s' k hk]
    exact h.2 k

theorem encodeMap_inj (m : ZrMap) (o o' : List UInt16) (h : encodeMap m o = encodeMap m o') : o = o' := by
  have h2 := congrArg (List.map fun kv : Asn1.KV => uint16 kv.K) h
  unfold encodeMap at h2
  rw [List.map_map, List.map_map] at h2
  have e : ((fun kv : Asn1.KV => uint16 kv.K) ∘ fun k : UInt16 => ⟨natToBE 2 k.toNat, zrBytes ((m k).getD 0)⟩) = some := by
    funext k
    exact uint16_natToBE k
  rw [e] at h2
  exact List.map_injective_iff.2 (Option.some_injective _) h2

theorem bytes_unmarshal {E : Curve G1 G2 GT} (hE : E.Lawful) (v : Verkle.Vertex G1) (od ov : List UInt16) (hdn : od.Nodup)
    (hvn : ov.Nodup) : ∃ rv, Asn1.unmarshal (v.bytes E od ov) = some rv ∧ rv.values = encodeMap v.values ov ∧
      rv.digests = encodeMap v.digests od := by
  refine ⟨⟨zrBytes v.blindingFactor, encodeMap v.values ov, encodeMap v.digests od, zrBytes v.sum, E.g1Bytes v.V,
    (v.W.map E.g1Bytes).getD []⟩, ?_, ?_⟩
  · unfold Verkle.Vertex.bytes
    rw [Asn1.unmarshal_marshal]
    · simp [zrBytes, natToBE_length]
    · simp [zrBytes, natToBE_length]
    · exact hE.g1_len _
    · cases v.W with
      | none => simp
      | some w => exact hE.g1_len _
    · exact encodeMap_small _ _
    · exact encodeMap_small _ _
    · simpa [encodeMap] using nodup_uint16_length _ hvn
    · simpa [encodeMap] using nodup_uint16_length _ hdn
  · exact ⟨rfl, rfl⟩

theorem bytes_orders {E : Curve G1 G2 GT} (hE : E.Lawful) (v : Verkle.Vertex G1) (od ov od' ov' : List UInt16)
    (hd : od.Nodup) (hv : ov.Nodup) (hd' : od'.Nodup) (hv' : ov'.Nodup) (h : v.bytes E od ov = v.bytes E od' ov') :
    od = od' ∧ ov = ov' := by
  obtain ⟨rv, h1, h2, h3⟩ := bytes_unmarshal hE v od ov hd hv
  obtain ⟨rv', h1', h2', h3'⟩ := bytes_unmarshal hE v od' ov' hd' hv'
  rw [h, h1', Option.some.injEq] at h1
  subst h1
  exact ⟨encodeMap_inj v.digests _ _ (h3.symm.trans h3'), encodeMap_inj v.values _ _ (h2.symm.trans h2')⟩

/-- The callback. -/
theorem update_alike {E : Curve G1 G2 GT} (hE : E.Lawful) {env env' : Env} (henv : env.Lawful) (henv' : env'.Lawful)
    (hr : env.rand = env'.rand) (PP : PP G1 G2 GT) (key : Str) (node : Option Data) (raw : List (Option Data)) (b : Bool) (i : ℕ)
    {s s' : State} (h : StateAlike E s s') :
    ORel (fun x y => x.1 = y.1 ∧ StateAlike E x.2 y.2) (updateInnerVertex E PP env key node raw b i s)
      (updateInnerVertex E PP env' key node raw b i s') := by
  have hst : ∀ v, ORel (fun x y : Option Data × State => x.1 = y.1 ∧ StateAlike E x.2 y.2)
      (some (some (.key key), Verkle.store E env key v s)) (some (some (.key key), Verkle.store E env' key v s')) :=
    fun v => orel_some ⟨rfl, h.store hE henv henv' key v⟩
  unfold updateInnerVertex
  cases b with
  | true =>
    rw [if_pos rfl, if_pos rfl]
    unfold updateLayerAboveLeaves
    cases node with
    | none =>
      dsimp only
      rw [hr, h.1]
      exact orel_bind_eq fun a => orel_bind_eq fun V => hst _
    | some d =>
      dsimp only
      rw [h.2.fetch]
      exact orel_bind_eq fun v => orel_bind_eq fun o => orel_bind_eq fun d => orel_bind_eq fun n =>
        orel_bind_eq fun V => orel_bind_eq fun V' => hst _
  | false =>
    rw [if_neg (by simp), if_neg (by simp)]
    unfold updateInnerLayer
    cases node with
    | none =>
      dsimp only
      rw [hr, h.1, h.2.loop]
      exact orel_bind_eq fun a => orel_bind_eq fun V => orel_bind_eq fun W => hst _
    | some d =>
      dsimp only
      rw [h.2.fetch]
      refine orel_bind_eq fun v => orel_bind_eq fun o => ?_
      rw [h.2.fetch]
      refine orel_bind_eq fun dv => orel_bind_eq fun nd => orel_bind_eq fun ds => ?_
      split_ifs
      · exact .inl ⟨rfl, rfl⟩
      · exact orel_bind_eq fun V => orel_bind_eq fun W => hst _

/-- Sets with the same tree in memory and the same vertices. -/
structure SetAlike (E : Curve G1 G2 GT) (ls ls' : LiabilitySet G1 G2 GT) : Prop where
  tree : ls.tree = ls'.tree
  pp : ls.pp = ls'.pp
  memRoot : SameValue E ls.memRoot ls'.memRoot
  s : StateAlike E ls.s ls'.s

theorem SetAlike.set {E : Curve G1 G2 GT} (hE : E.Lawful) {env env' : Env} (henv : env.Lawful) (henv' : env'.Lawful)
    (hr : env.rand = env'.rand) {ls ls' : LiabilitySet G1 G2 GT} (h : SetAlike E ls ls') (id : Str) (n : ℤ) :
    ORel (SetAlike E) (ls.set E env id n) (ls'.set E env' id n) := by
  unfold LiabilitySet.set
  split_ifs
  · exact .inl ⟨rfl, rfl⟩
  refine orel_bind (R := fun x y => x.1 = y.1 ∧ StateAlike E x.2 y.2) ?_ fun a b hab =>
    orel_some ⟨hab.1, h.pp, h.memRoot, hab.2⟩
  rw [h.tree]
  unfold Verkle.Tree.put
  refine orel_bind (R := fun x y => x.1.root = y.1.root ∧ StateAlike E x.2 y.2) ?_ fun a b hab => ?_
  · unfold Sparse.Tree.put
    refine orel_bind_eq fun p => ?_
    refine orel_bind (putAt_rel (R := StateAlike E)
      (fun key node raw b i s t hst => update_alike hE henv henv' hr ls'.tree.PP key node raw b i hst) _ _ p [] _ _ _ h.s)
      fun a b hab => orel_some ⟨?_, hab.2⟩
    show some a.1 = some b.1
    rw [hab.1]
  · refine orel_some ⟨?_, hab.2⟩
    dsimp only
    rw [hab.1]

theorem mapM_congr' {α β : Type} (l : List α) (f g : α → Option β) (h : ∀ a ∈ l, f a = g a) : l.mapM f = l.mapM g := by
  induction l with
  | nil => rfl
  | cons a l ih =>
    rw [List.mapM_cons, List.mapM_cons, h a (by simp), ih fun b hb => h b (by simp [hb])]

theorem SetAlike.treeGet {E : Curve G1 G2 GT} {env env' : Env} {ls ls' : LiabilitySet G1 G2 GT} (h : SetAlike E ls ls')
    (id : Str) : ls.tree.get E env id ls.s.db = ls'.tree.get E env' id ls'.s.db := by
  rw [h.tree]
  unfold Verkle.Tree.get
  have e : (ls'.tree.sparse E env).get id = (ls'.tree.sparse E env').get id := by
    simp only [Sparse.Tree.get, Verkle.Tree.sparse]
  rw [e]
  cases (ls'.tree.sparse E env').get id with
  | none => rfl
  | some o =>
    simp only [Option.bind_eq_bind, Option.bind_some]
    cases o with
    | none => rfl
    | some o =>
      obtain ⟨n, path⟩ := o
      dsimp only
      congr 1
      refine mapM_congr' _ _ _ fun u _ => ?_
      cases u.data with
      | none => rfl
      | some d =>
        cases hk : d.str with
        | none => simp [hk]
        | some k =>
          simp only [Option.bind_some, hk]
          exact (h.s.2 k).vertex

theorem SetAlike.get {E : Curve G1 G2 GT} {env env' : Env} {ls ls' : LiabilitySet G1 G2 GT} (h : SetAlike E ls ls')
    (id : Str) : ls.get E env id = ls'.get E env' id := by
  unfold LiabilitySet.get
  rw [h.treeGet (env' := env')]

theorem SetAlike.root {E : Curve G1 G2 GT} {ls ls' : LiabilitySet G1 G2 GT} (h : SetAlike E ls ls') :
    ORel (fun x y => x.1 = y.1 ∧ SetAlike E x.2 y.2) (ls.root E) (ls'.root E) := by
  unfold LiabilitySet.root
  rw [h.tree]
  cases ls'.tree.root with
  | none => exact orel_some ⟨rfl, h⟩
  | some r =>
    dsimp only
    refine orel_bind_eq fun d => orel_bind_eq fun key => ?_
    have hm : SameValue E (memGet ls.s.db ls.memRoot key).1 (memGet ls'.s.db ls'.memRoot key).1 ∧
        SameValue E (memGet ls.s.db ls.memRoot key).2 (memGet ls'.s.db ls'.memRoot key).2 := by
      unfold memGet
      by_cases hc : key.length = 0 ∧ ls.memRoot.length ≠ 0
      · rw [if_pos hc, if_pos ⟨hc.1, fun h0 => hc.2 (h.memRoot.missing.2 h0)⟩]
        exact ⟨h.memRoot, h.memRoot⟩
      · rw [if_neg hc, if_neg fun hx => hc ⟨hx.1, fun h0 => hx.2 (h.memRoot.missing.1 h0)⟩]
        refine ⟨h.s.2 key, ?_⟩
        dsimp only
        split_ifs
        · exact h.s.2 key
        · exact h.memRoot
    rw [hm.1.vertex]
    exact orel_bind_eq fun v => orel_some ⟨rfl, rfl, h.pp, hm.2, h.s⟩

theorem SetAlike.proveTot {E : Curve G1 G2 GT} {ls ls' : LiabilitySet G1 G2 GT} (h : SetAlike E ls ls') :
    ls.proveTot E = ls'.proveTot E := by
  unfold LiabilitySet.proveTot
  rw [(h.s.2 []).vertex]
  unfold LiabilitySet.openSumFromVertex
  rw [h.pp]

theorem SetAlike.proveLiability {E : Curve G1 G2 GT} {env env' : Env} {ls ls' : LiabilitySet G1 G2 GT} (h : SetAlike E ls ls')
    (rnd : ProveRand) (id : Str) : ls.proveLiability E env rnd id = ls'.proveLiability E env' rnd id := by
  unfold LiabilitySet.proveLiability LiabilitySet.openForClient proveLayer
  rw [h.treeGet (env' := env'), h.tree, h.pp]

theorem _root_.PoL.Spec.SameHeld.alike {E : Curve G1 G2 GT} {p q : Held G1 G2 GT} (h : SameHeld E p q) : SetAlike E p.ls q.ls :=
  ⟨h.tree, h.setPP, h.memRoot, h.writes, h.db⟩

theorem _root_.PoL.Spec.SameHeld.with {E : Curve G1 G2 GT} {p q : Held G1 G2 GT} (h : SameHeld E p q) {ls ls' : LiabilitySet G1 G2 GT}
    (hl : SetAlike E ls ls') : SameHeld E { p with ls := ls } { q with ls := ls' } :=
  ⟨hl.tree, hl.pp, hl.memRoot, hl.s.1, hl.s.2, h.pp, h.id2Path, h.roots, h.totals, h.proofs⟩

/-- One call. -/
theorem apiCall_alike {E : Curve G1 G2 GT} (hE : E.Lawful) {env env' : Env} (henv : env.Lawful) (henv' : env'.Lawful)
    (hr : env.rand = env'.rand) {p q : Held G1 G2 GT} (h : SameHeld E p q) (c : ApiCall) :
    ORel (fun x y => SameHeld E x.1 y.1 ∧ x.2 = y.2) (apiCall E env p c) (apiCall E env' q c) := by
  cases c with
  | set id a =>
    unfold apiCall
    exact orel_bind (h.alike.set hE henv henv' hr id a) fun x y hxy => orel_some ⟨h.with hxy, rfl⟩
  | get id =>
    unfold apiCall
    dsimp only
    rw [h.alike.get (env' := env')]
    exact orel_bind_eq fun a => orel_some ⟨h, rfl⟩
  | root =>
    unfold apiCall
    refine orel_bind h.alike.root fun x y hxy => orel_some ⟨?_, by rw [hxy.1]⟩
    refine ⟨hxy.2.tree, hxy.2.pp, hxy.2.memRoot, hxy.2.s.1, hxy.2.s.2, h.pp, h.id2Path, ?_, h.totals, h.proofs⟩
    dsimp only
    rw [h.roots, hxy.1]
  | proveTot =>
    unfold apiCall
    dsimp only
    rw [h.alike.proveTot]
    refine orel_bind_eq fun a => orel_some ⟨?_, rfl⟩
    exact ⟨h.tree, h.setPP, h.memRoot, h.writes, h.db, h.pp, h.id2Path, h.roots, by dsimp only; rw [h.totals], h.proofs⟩
  | proveLiability rnd id =>
    unfold apiCall
    dsimp only
    rw [h.alike.proveLiability (env' := env')]
    refine orel_bind_eq fun a => orel_some ⟨?_, rfl⟩
    exact ⟨h.tree, h.setPP, h.memRoot, h.writes, h.db, h.pp, h.id2Path, h.roots, h.totals, by dsimp only; rw [h.proofs]⟩
  | verifyTotal i j =>
    unfold apiCall
    dsimp only
    rw [h.totals, h.roots, h.pp]
    exact orel_bind_eq fun a => orel_bind_eq fun b => orel_bind_eq fun v => orel_some ⟨h, rfl⟩
  | verifyLiability i j id =>
    unfold apiCall
    dsimp only
    rw [h.proofs, h.roots, h.pp, h.id2Path]
    exact orel_bind_eq fun a => orel_bind_eq fun b => orel_bind_eq fun W => orel_bind_eq fun v => orel_some ⟨h, rfl⟩

/-- All calls. -/
theorem apiCalls_alike {E : Curve G1 G2 GT} (hE : E.Lawful) {env env' : Env} (henv : env.Lawful) (henv' : env'.Lawful)
    (hr : env.rand = env'.rand) {p q : Held G1 G2 GT} (h : SameHeld E p q) (cs : List ApiCall) :
    ORel (fun x y => SameHeld E x.1 y.1 ∧ x.2 = y.2) (apiCalls E env p cs) (apiCalls E env' q cs) := by
  induction cs generalizing p q with
  | nil => exact orel_some ⟨h, rfl⟩
  | cons c cs ih =>
    unfold apiCalls
    refine orel_bind (apiCall_alike hE henv henv' hr h c) fun x y hxy => ?_
    refine orel_bind (ih hxy.1) fun x' y' hxy' => orel_some ⟨hxy'.1, ?_⟩
    rw [hxy.2, hxy'.2]

end PoL.Pol
