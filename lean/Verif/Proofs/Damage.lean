import Verif.Spec.Damage
import Verif.Proofs.Storage
import Verif.Proofs.Access

/-! Runs over a database that cuts values short. -/

set_option linter.unusedSectionVars false

namespace PoL.Asn1

theorem decLen_append {b : Bytes} {n : ℕ} {t : Bytes} (h : decLen b = some (n, t)) (x : Bytes) :
    decLen (b ++ x) = some (n, t ++ x) := by
  cases b with
  | nil => cases h
  | cons a b =>
    simp only [decLen, List.cons_append] at h ⊢
    by_cases h1 : a.toNat < 128
    · rw [if_pos h1] at h ⊢
      simp only [Option.some.injEq, Prod.mk.injEq] at h
      rw [h.1, h.2]
    · rw [if_neg h1] at h ⊢
      by_cases h2 : b.length < a.toNat - 128
      · rw [if_pos h2] at h
        cases h
      · have hl : a.toNat - 128 ≤ b.length := by omega
        rw [if_neg h2] at h
        rw [if_neg (by rw [List.length_append]; omega), List.take_append_of_le_length hl, List.drop_append_of_le_length hl]
        split_ifs at h ⊢ with h3
        simp only [Option.some.injEq, Prod.mk.injEq] at h
        rw [h.1, h.2]

theorem readTlv_append {tag : UInt8} {b c r : Bytes} (h : readTlv tag b = some (c, r)) (x : Bytes) :
    readTlv tag (b ++ x) = some (c, r ++ x) := by
  cases b with
  | nil => cases h
  | cons a b =>
    simp only [readTlv, List.cons_append] at h ⊢
    split_ifs at h ⊢ with h1
    obtain ⟨⟨n, t⟩, h2, h3⟩ := Option.bind_eq_some_iff.1 h
    simp only [Option.bind_eq_bind, decLen_append h2 x, Option.bind_some]
    dsimp only at h3
    by_cases h4 : t.length < n
    · rw [if_pos h4] at h3
      cases h3
    · have hl : n ≤ t.length := by omega
      rw [if_neg h4] at h3
      rw [if_neg (by rw [List.length_append]; omega), List.take_append_of_le_length hl, List.drop_append_of_le_length hl]
      simp only [Option.pure_def, Option.some.injEq, Prod.mk.injEq] at h3 ⊢
      rw [h3.1, h3.2]
      exact ⟨rfl, rfl⟩

theorem unmarshal_append {b : Bytes} {rv : RawVertex} (h : unmarshal b = some rv) (x : Bytes) :
    unmarshal (b ++ x) = some rv := by
  unfold unmarshal at h ⊢
  obtain ⟨⟨c, r⟩, h1, h2⟩ := Option.bind_eq_some_iff.1 h
  simp only [Option.bind_eq_bind, readTlv_append h1 x, Option.bind_some]
  exact h2

theorem encLen_ne_nil (n : ℕ) : encLen n ≠ [] := by
  unfold encLen
  split_ifs <;> simp

theorem readTlv_cut (tag : UInt8) (c b : Bytes) (hc : c.length < 2147483648) (h : b <+: tlv tag c) (hne : b ≠ tlv tag c) :
    readTlv tag b = none := by
  cases e : readTlv tag b with
  | none => rfl
  | some r =>
    exfalso
    obtain ⟨x, hx⟩ := h
    obtain ⟨c', r⟩ := r
    have h1 := readTlv_append e x
    have h2 := readTlv_tlv tag c [] hc
    rw [List.append_nil] at h2
    rw [hx, h2] at h1
    simp only [Option.some.injEq, Prod.mk.injEq] at h1
    obtain ⟨h3, h4⟩ := h1
    have h5 := (List.append_eq_nil_iff.1 h4.symm).2
    rw [h5, List.append_nil] at hx
    exact hne hx

end PoL.Asn1

namespace PoL.Pol
open Spec Verkle

variable {G1 G2 GT : Type} [AddCommGroup G1] [Module Zr G1] [AddCommGroup G2] [Module Zr G2]
  [AddCommGroup GT] [Module Zr GT] [DecidableEq G1] [DecidableEq GT]

theorem fromBytes_append {E : Curve G1 G2 GT} {b : Bytes} {v : Verkle.Vertex G1} (h : Verkle.Vertex.fromBytes E b = some v)
    (x : Bytes) : Verkle.Vertex.fromBytes E (b ++ x) = some v := by
  unfold Verkle.Vertex.fromBytes at h ⊢
  obtain ⟨rv, h1, h2⟩ := Option.bind_eq_some_iff.1 h
  simp only [Option.bind_eq_bind, Asn1.unmarshal_append h1 x, Option.bind_some]
  exact h2

theorem fromBytes_prefix (E : Curve G1 G2 GT) {b b' : Bytes} (h : b' <+: b) :
    Below Eq (Verkle.Vertex.fromBytes E b) (Verkle.Vertex.fromBytes E b') := by
  cases e : Verkle.Vertex.fromBytes E b' with
  | none => exact .inl rfl
  | some v =>
    obtain ⟨x, rfl⟩ := h
    rw [fromBytes_append e x]
    exact below_some rfl

theorem _root_.PoL.Spec.CutSome.fetch {db db' : Db} (h : CutSome db db') (E : Curve G1 G2 GT) (d : Option Data) :
    Below Eq (fetchVertex E db d) (fetchVertex E db' d) := by
  unfold fetchVertex
  refine below_bind_eq fun d => below_bind_eq fun k => ?_
  have hp := h k
  dsimp only
  split_ifs with h1 h2 h2
  · exact .inl rfl
  · exfalso
    have := hp.length_le
    omega
  · exact .inl rfl
  · exact fromBytes_prefix E hp

theorem _root_.PoL.Spec.CutSome.loop {db db' : Db} (h : CutSome db db') (E : Curve G1 G2 GT) (l : List (Option Data)) (i : ℕ)
    (a : InnerAcc) : Below Eq (innerLoop E db l i a) (innerLoop E db' l i a) := by
  induction l generalizing i a with
  | nil => exact below_rfl _
  | cons d l ih =>
    cases d with
    | none => exact ih _ _
    | some d =>
      simp only [innerLoop]
      exact below_eq (h.fetch E _) fun v => below_bind_eq fun x => ih _ _

/-- The same number of writes, and a database with values cut short. -/
def StateCut (s s' : State) : Prop := s.tick = s'.tick ∧ CutSome s.db s'.db

theorem StateCut.store {s s' : State} (h : StateCut s s') (E : Curve G1 G2 GT) (env : Env) (key : Str) (v : Verkle.Vertex G1) :
    StateCut (Verkle.store E env key v s) (Verkle.store E env key v s') := by
  refine ⟨congrArg (· + 1) h.1, fun k => ?_⟩
  by_cases hk : k = key
  · subst hk
    simp [Verkle.store, Db.put, h.1]
  · rw [store_db E env key v s k hk, store_db E env key v s' k hk]
    exact h.2 k

theorem update_cut (E : Curve G1 G2 GT) (env : Env) (PP : PP G1 G2 GT) (key : Str) (node : Option Data)
    (raw : List (Option Data)) (b : Bool) (i : ℕ) {s s' : State} (h : StateCut s s') :
    Below (fun x y => x.1 = y.1 ∧ StateCut x.2 y.2) (updateInnerVertex E PP env key node raw b i s)
      (updateInnerVertex E PP env key node raw b i s') := by
  have hst : ∀ v, Below (fun x y : Option Data × State => x.1 = y.1 ∧ StateCut x.2 y.2)
      (some (some (.key key), Verkle.store E env key v s)) (some (some (.key key), Verkle.store E env key v s')) :=
    fun v => below_some ⟨rfl, h.store E env key v⟩
  unfold updateInnerVertex
  cases b with
  | true =>
    rw [if_pos rfl, if_pos rfl]
    unfold updateLayerAboveLeaves
    cases node with
    | none =>
      dsimp only
      rw [h.1]
      exact below_bind_eq fun a => below_bind_eq fun V => hst _
    | some d =>
      dsimp only
      exact below_eq (h.2.fetch E _) fun v => below_bind_eq fun o => below_bind_eq fun d => below_bind_eq fun n =>
        below_bind_eq fun V => below_bind_eq fun V' => hst _
  | false =>
    rw [if_neg (by simp), if_neg (by simp)]
    unfold updateInnerLayer
    cases node with
    | none =>
      dsimp only
      rw [h.1]
      exact below_eq (h.2.loop E _ _ _) fun a => below_bind_eq fun V => below_bind_eq fun W => hst _
    | some d =>
      dsimp only
      refine below_eq (h.2.fetch E _) fun v => below_bind_eq fun o => below_eq (h.2.fetch E _) fun dv =>
        below_bind_eq fun nd => below_bind_eq fun ds => ?_
      split_ifs
      · exact .inl rfl
      · exact below_bind_eq fun V => below_bind_eq fun W => hst _

/-- Sets that differ in values cut short only. -/
structure SetCut (ls ls' : LiabilitySet G1 G2 GT) : Prop where
  tree : ls.tree = ls'.tree
  pp : ls.pp = ls'.pp
  memRoot : CutRoot ls.memRoot ls'.memRoot
  s : StateCut ls.s ls'.s

theorem SetCut.set {ls ls' : LiabilitySet G1 G2 GT} (h : SetCut ls ls') (E : Curve G1 G2 GT) (env : Env) (id : Str) (n : ℤ) :
    Below SetCut (ls.set E env id n) (ls'.set E env id n) := by
  unfold LiabilitySet.set
  split_ifs
  · exact .inl rfl
  refine below_bind (R := fun x y => x.1 = y.1 ∧ StateCut x.2 y.2) ?_ fun a b hab =>
    below_some ⟨hab.1, h.pp, h.memRoot, hab.2⟩
  rw [h.tree]
  unfold Verkle.Tree.put
  refine below_bind (R := fun x y => x.1.root = y.1.root ∧ StateCut x.2 y.2) ?_ fun a b hab => ?_
  · unfold Sparse.Tree.put
    refine below_bind_eq fun p => ?_
    refine below_bind (putAt_below (R := StateCut)
      (fun key node raw b i s t hst => update_cut E env ls'.tree.PP key node raw b i hst) _ _ p [] _ _ _ h.s)
      fun a b hab => below_some ⟨?_, hab.2⟩
    show some a.1 = some b.1
    rw [hab.1]
  · refine below_some ⟨?_, hab.2⟩
    dsimp only
    rw [hab.1]

theorem SetCut.treeGet {ls ls' : LiabilitySet G1 G2 GT} (h : SetCut ls ls') (E : Curve G1 G2 GT) (env : Env) (id : Str) :
    Below Eq (ls.tree.get E env id ls.s.db) (ls'.tree.get E env id ls'.s.db) := by
  rw [h.tree]
  unfold Verkle.Tree.get
  refine below_bind_eq fun o => ?_
  cases o with
  | none => exact below_rfl _
  | some o =>
    obtain ⟨n, path⟩ := o
    dsimp only
    exact below_eq (mapM_below _ _ _ fun u => below_bind_eq fun d => below_bind_eq fun k => fromBytes_prefix E (h.s.2 k))
      fun vs => below_rfl _

theorem SetCut.get {ls ls' : LiabilitySet G1 G2 GT} (h : SetCut ls ls') (E : Curve G1 G2 GT) (env : Env) (id : Str) :
    Below Eq (ls.get E env id) (ls'.get E env id) := by
  unfold LiabilitySet.get
  exact below_eq (h.treeGet E env id) fun o => below_rfl _

theorem fromBytes_ne_nil {E : Curve G1 G2 GT} {b : Bytes} {v : Verkle.Vertex G1} (h : Verkle.Vertex.fromBytes E b = some v) :
    b ≠ [] := by
  rintro rfl
  rw [fromBytes_nil] at h
  cases h

theorem cutRoot_of {E : Curve G1 G2 GT} {b b' : Bytes} (h : b' <+: b) {v : Verkle.Vertex G1}
    (e : Verkle.Vertex.fromBytes E b' = some v) : CutRoot b b' := by
  have h' := fromBytes_ne_nil e
  refine ⟨h, ?_, fun e => absurd e h'⟩
  rintro rfl
  exact List.prefix_nil.1 h

theorem SetCut.root {ls ls' : LiabilitySet G1 G2 GT} (h : SetCut ls ls') (E : Curve G1 G2 GT) :
    Below (fun x y => x.1 = y.1 ∧ SetCut x.2 y.2) (ls.root E) (ls'.root E) := by
  unfold LiabilitySet.root
  rw [h.tree]
  cases ls'.tree.root with
  | none => exact below_some ⟨rfl, h⟩
  | some r =>
    dsimp only
    refine below_bind_eq fun d => below_bind_eq fun key => ?_
    have hm : ls.memRoot.length ≠ 0 ↔ ls'.memRoot.length ≠ 0 := by
      rw [ne_eq, ne_eq, List.length_eq_zero_iff, List.length_eq_zero_iff, h.memRoot.empty]
    unfold memGet
    by_cases h1 : key.length = 0 ∧ ls.memRoot.length ≠ 0
    · rw [if_pos h1, if_pos ⟨h1.1, hm.1 h1.2⟩]
      exact below_eq (fromBytes_prefix E h.memRoot.pre) fun v => below_some ⟨rfl, rfl, h.pp, h.memRoot, h.s⟩
    rw [if_neg h1, if_neg fun h2 => h1 ⟨h2.1, hm.2 h2.2⟩]
    split_ifs with h2
    all_goals dsimp only
    · rcases e : Verkle.Vertex.fromBytes E (ls'.s.db key) with _ | v
      · exact .inl rfl
      · have e' := fromBytes_prefix E (h.s.2 key)
        rw [e] at e'
        rcases e' with e' | ⟨a, b, e1, e2, rfl⟩
        · cases e'
        · rw [Option.some.injEq] at e2
          subst e2
          simp only [e1, Option.bind_eq_bind, Option.bind_some]
          exact below_some ⟨rfl, rfl, h.pp, cutRoot_of (h.s.2 key) e, h.s⟩
    · exact below_eq (fromBytes_prefix E (h.s.2 key)) fun v => below_some ⟨rfl, rfl, h.pp, h.memRoot, h.s⟩

theorem SetCut.proveTot {ls ls' : LiabilitySet G1 G2 GT} (h : SetCut ls ls') (E : Curve G1 G2 GT) :
    Below Eq (ls.proveTot E) (ls'.proveTot E) := by
  unfold LiabilitySet.proveTot
  refine below_eq (fromBytes_prefix E (h.s.2 [])) fun v => ?_
  unfold LiabilitySet.openSumFromVertex
  rw [h.pp]
  exact below_rfl _

theorem SetCut.proveLiability {ls ls' : LiabilitySet G1 G2 GT} (h : SetCut ls ls') (E : Curve G1 G2 GT) (env : Env)
    (rnd : ProveRand) (id : Str) : Below Eq (ls.proveLiability E env rnd id) (ls'.proveLiability E env rnd id) := by
  unfold LiabilitySet.proveLiability LiabilitySet.openForClient proveLayer
  have e := h.treeGet E env id
  rw [← h.tree, ← h.pp]
  rw [← h.tree] at e
  exact below_bind_eq fun path => below_eq e fun o => below_rfl _

theorem _root_.PoL.Spec.SameButCut.below {p q : Held G1 G2 GT} (h : SameButCut p q) : SetCut p.ls q.ls :=
  ⟨h.tree, h.setPP, h.memRoot, h.writes, h.db⟩

theorem _root_.PoL.Spec.SameButCut.with {p q : Held G1 G2 GT} (h : SameButCut p q) {ls ls' : LiabilitySet G1 G2 GT}
    (hl : SetCut ls ls') : SameButCut { p with ls := ls } { q with ls := ls' } :=
  ⟨hl.tree, hl.pp, hl.memRoot, hl.s.1, hl.s.2, h.pp, h.id2Path, h.roots, h.totals, h.proofs⟩

theorem apiCall_cut (E : Curve G1 G2 GT) (env : Env) {p q : Held G1 G2 GT} (h : SameButCut p q) (c : ApiCall) :
    Below (fun x y => SameButCut x.1 y.1 ∧ x.2 = y.2) (apiCall E env p c) (apiCall E env q c) := by
  cases c with
  | set id a =>
    unfold apiCall
    exact below_bind (h.below.set E env id a) fun x y hxy => below_some ⟨h.with hxy, rfl⟩
  | get id =>
    unfold apiCall
    exact below_eq (h.below.get E env id) fun a => below_some ⟨h, rfl⟩
  | root =>
    unfold apiCall
    refine below_bind (h.below.root E) fun x y hxy => below_some ⟨?_, by rw [hxy.1]⟩
    refine ⟨hxy.2.tree, hxy.2.pp, hxy.2.memRoot, hxy.2.s.1, hxy.2.s.2, h.pp, h.id2Path, ?_, h.totals, h.proofs⟩
    dsimp only
    rw [h.roots, hxy.1]
  | proveTot =>
    unfold apiCall
    refine below_eq (h.below.proveTot E) fun a => below_some ⟨?_, rfl⟩
    exact ⟨h.tree, h.setPP, h.memRoot, h.writes, h.db, h.pp, h.id2Path, h.roots, by dsimp only; rw [h.totals], h.proofs⟩
  | proveLiability rnd id =>
    unfold apiCall
    refine below_eq (h.below.proveLiability E env rnd id) fun a => below_some ⟨?_, rfl⟩
    exact ⟨h.tree, h.setPP, h.memRoot, h.writes, h.db, h.pp, h.id2Path, h.roots, h.totals, by dsimp only; rw [h.proofs]⟩
  | verifyTotal i j =>
    unfold apiCall
    dsimp only
    rw [h.totals, h.roots, h.pp]
    exact below_bind_eq fun a => below_bind_eq fun b => below_bind_eq fun v => below_some ⟨h, rfl⟩
  | verifyLiability i j id =>
    unfold apiCall
    dsimp only
    rw [h.proofs, h.roots, h.pp, h.id2Path]
    exact below_bind_eq fun a => below_bind_eq fun b => below_bind_eq fun W => below_bind_eq fun v => below_some ⟨h, rfl⟩

theorem cutCalls_below (E : Curve G1 G2 GT) (env : Env) {p q : Held G1 G2 GT} (h : SameButCut p q) (cs : List CutCall) :
    Below (fun x y => SameButCut x.1 y.1 ∧ x.2 = y.2) (apiCalls E env p (uncutCalls cs)) (cutCalls E env q cs) := by
  induction cs generalizing p q with
  | nil => exact below_some ⟨h, rfl⟩
  | cons c cs ih =>
    cases c with
    | call c =>
      show Below _ (apiCalls E env p (c :: uncutCalls cs)) _
      unfold apiCalls cutCalls
      refine below_bind (apiCall_cut E env h c) fun x y hxy => ?_
      refine below_bind (ih hxy.1) fun x' y' hxy' => below_some ⟨hxy'.1, ?_⟩
      rw [hxy.2, hxy'.2]
    | cut key n =>
      show Below _ (apiCalls E env p (uncutCalls cs)) _
      unfold cutCalls
      refine ih (h.with (ls := p.ls) ⟨h.tree, h.setPP, h.memRoot, h.writes, fun k => ?_⟩)
      by_cases hk : k = key
      · subst hk
        simp only [cutKey, Db.put, if_true]
        exact (List.take_prefix _ _).trans (h.db k)
      · simp only [cutKey, Db.put, if_neg hk]
        exact h.db k

end PoL.Pol

namespace PoL.Asn1

/-- The content of a vertex with at most `65536` values and digests is not too long to be read back. -/
theorem marshal_small (rv : RawVertex) (hb : rv.blindingFactor.length ≤ 64) (hs : rv.sum.length ≤ 64)
    (hV : rv.V.length ≤ 64) (hW : rv.W.length ≤ 64) (hv : ∀ kv ∈ rv.values, kv.Small)
    (hd : ∀ kv ∈ rv.digests, kv.Small) (hvl : rv.values.length ≤ 65536) (hdl : rv.digests.length ≤ 65536) :
    (octets rv.blindingFactor ++ sequence (rv.values.flatMap encKV)
      ++ sequence (rv.digests.flatMap encKV) ++ octets rv.sum ++ octets rv.V ++ octets rv.W).length < 2147483648 := by
  have l1 := tlv_length_le 0x04 rv.blindingFactor (by omega)
  have l2 := tlv_length_le 0x04 rv.sum (by omega)
  have l3 := tlv_length_le 0x04 rv.V (by omega)
  have l4 := tlv_length_le 0x04 rv.W (by omega)
  have f1 := flatMap_encKV_length_le _ hv
  have f2 := flatMap_encKV_length_le _ hd
  have l5 := tlv_length_le 0x30 (rv.values.flatMap encKV) (by omega)
  have l6 := tlv_length_le 0x30 (rv.digests.flatMap encKV) (by omega)
  simp only [List.length_append]
  unfold octets sequence
  omega

end PoL.Asn1

namespace PoL.Verkle
open Spec Pol

variable {G1 G2 GT : Type} [AddCommGroup G1] [Module Zr G1] [AddCommGroup G2] [Module Zr G2]
  [AddCommGroup GT] [Module Zr GT] [DecidableEq G1] [DecidableEq GT]

/-- The structure that `bytes` marshals. -/
def Vertex.rawOf (E : Curve G1 G2 GT) (v : Vertex G1) (od ov : List UInt16) : Asn1.RawVertex :=
  ⟨zrBytes v.blindingFactor, encodeMap v.values ov, encodeMap v.digests od, zrBytes v.sum, E.g1Bytes v.V,
    (v.W.map E.g1Bytes).getD []⟩

theorem fromBytes_cut {E : Curve G1 G2 GT} (hE : E.Lawful) (v : Vertex G1) (od ov : List UInt16)
    (hdn : od.Nodup) (hvn : ov.Nodup) (n : ℕ) (hn : n < (v.bytes E od ov).length) :
    Vertex.fromBytes E ((v.bytes E od ov).take n) = none := by
  unfold Vertex.fromBytes Asn1.unmarshal
  have h : Asn1.readTlv 0x30 ((v.bytes E od ov).take n) = none := by
    refine Asn1.readTlv_cut 0x30 _ _ (Asn1.marshal_small (v.rawOf E od ov) ?_ ?_ ?_ ?_ ?_ ?_ ?_ ?_) (List.take_prefix n _) ?_
    · simp [Vertex.rawOf, zrBytes, natToBE_length]
    · simp [Vertex.rawOf, zrBytes, natToBE_length]
    · exact hE.g1_len _
    · unfold Vertex.rawOf
      cases v.W with
      | none => simp
      | some w => exact hE.g1_len _
    · exact encodeMap_small _ _
    · exact encodeMap_small _ _
    · simpa [Vertex.rawOf, encodeMap] using nodup_uint16_length _ hvn
    · simpa [Vertex.rawOf, encodeMap] using nodup_uint16_length _ hdn
    · intro e
      have := congrArg List.length e
      rw [List.length_take] at this
      have e' : (Asn1.tlv 0x30 (Asn1.octets (v.rawOf E od ov).blindingFactor
        ++ Asn1.sequence ((v.rawOf E od ov).values.flatMap Asn1.encKV)
        ++ Asn1.sequence ((v.rawOf E od ov).digests.flatMap Asn1.encKV) ++ Asn1.octets (v.rawOf E od ov).sum
        ++ Asn1.octets (v.rawOf E od ov).V ++ Asn1.octets (v.rawOf E od ov).W)) = v.bytes E od ov := rfl
      rw [e'] at this
      omega
  rw [h]
  rfl

/-- The parts of a vertex that are written before its points. -/
def frontBytes (v : Vertex G1) (od ov : List UInt16) : Bytes :=
  Asn1.octets (zrBytes v.blindingFactor) ++ Asn1.sequence ((encodeMap v.values ov).flatMap Asn1.encKV)
    ++ Asn1.sequence ((encodeMap v.digests od).flatMap Asn1.encKV) ++ Asn1.octets (zrBytes v.sum)

/-- The points of a vertex. -/
def pointBytes (E : Curve G1 G2 GT) (v : Vertex G1) : Bytes :=
  Asn1.octets (E.g1Bytes v.V) ++ Asn1.octets ((v.W.map E.g1Bytes).getD [])

theorem bytes_parts (E : Curve G1 G2 GT) (v : Vertex G1) (od ov : List UInt16) :
    v.bytes E od ov = (0x30 :: Asn1.encLen ((frontBytes v od ov).length + (pointBytes E v).length) ++ frontBytes v od ov)
      ++ pointBytes E v := by
  unfold Vertex.bytes Asn1.marshal
  rw [Asn1.sequence, Asn1.tlv]
  have : ∀ a b c d e f : Bytes, a ++ b ++ c ++ d ++ e ++ f = (a ++ b ++ c ++ d) ++ (e ++ f) := by
    intros; simp only [List.append_assoc]
  rw [this, List.length_append]
  show (0x30 : UInt8) :: (Asn1.encLen ((frontBytes v od ov).length + (pointBytes E v).length)
    ++ (frontBytes v od ov ++ pointBytes E v)) = _
  simp only [List.cons_append, List.append_assoc]

theorem front_length (v : Vertex G1) (od ov : List UInt16) :
    (frontBytes v od ov).length = derSize 32 + mapSize ov.length + mapSize od.length + derSize 32 := by
  unfold frontBytes
  simp only [List.length_append, encodeMap_length, Asn1.octets, tlv_length]
  simp only [zrBytes, natToBE_length]

theorem mapM_all {A B : Type} {f : A → Option B} {l : List A} {ys : List B} (h : l.mapM f = some ys) :
    ∀ x ∈ l, (f x).isSome := by
  induction l generalizing ys with
  | nil => intro x hx; cases hx
  | cons a l ih =>
    rw [List.mapM_cons] at h
    obtain ⟨b, hb, h⟩ := obind_elim h
    obtain ⟨bs, hbs, -⟩ := obind_elim h
    intro x hx
    rcases List.mem_cons.1 hx with rfl | hx
    · rw [hb]; rfl
    · exact ih hbs x hx

theorem treeGet_decodes (E : Curve G1 G2 GT) (env : Env) (t : Tree G1 G2 GT) (id : Str) (db db' : Db) (tr : List Trace.Access)
    {r : Option (ℤ × List (Vertex G1)) × List Trace.Access} (h : Trace.treeGet E env t id db tr = some r)
    {r' : Option (ℤ × List (Vertex G1))} (h' : t.get E env id db' = some r') :
    ∀ k, Trace.Access.get k ∈ r.2 → Trace.Access.get k ∈ tr ∨ (Vertex.fromBytes E (db' k)).isSome := by
  unfold Trace.treeGet at h
  unfold Tree.get at h'
  obtain ⟨x, hx, h⟩ := obind_elim h
  obtain ⟨x', hx', h'⟩ := obind_elim h'
  rw [hx, Option.some.injEq] at hx'
  subst hx'
  cases x with
  | none =>
    simp only [Option.pure_def, Option.some.injEq] at h
    subst h
    exact fun k hk => .inl hk
  | some np =>
    obtain ⟨n, path⟩ := np
    dsimp only at h h'
    rw [Trace.readLoop_eq] at h
    obtain ⟨y, hy, h⟩ := obind_elim h
    obtain ⟨vs, hvs, rfl⟩ := Option.map_eq_some_iff.1 hy
    obtain ⟨vs', hvs', -⟩ := obind_elim h'
    dsimp only at h
    obtain ⟨d, -, h⟩ := obind_elim h
    obtain ⟨a, -, h⟩ := obind_elim h
    simp only [Option.pure_def, Option.some.injEq] at h
    subst h
    intro k hk
    dsimp only at hk
    rcases List.mem_append.1 hk with hk | hk
    · exact .inl hk
    · right
      obtain ⟨u, hu, e⟩ := List.mem_map.1 hk
      have h1 := mapM_all hvs' u hu
      obtain ⟨w, hw⟩ := Option.isSome_iff_exists.1 h1
      obtain ⟨d', hd', hw⟩ := obind_elim hw
      obtain ⟨k', hk', hw⟩ := obind_elim hw
      rw [Trace.Access.get.injEq] at e
      rw [← e, hd']
      cases d' with
      | amount m => cases hk'
      | key m =>
        simp only [Data.str, Option.some.injEq] at hk'
        subst hk'
        show (Vertex.fromBytes E (db' m)).isSome
        rw [hw]
        rfl

end PoL.Verkle
