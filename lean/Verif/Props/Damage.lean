import Verif.Proofs.Damage
import Verif.Props.Storage
import Verif.Props.Lost

/-!
# A database that keeps only the first bytes of a value (C119)
-/

set_option linter.unusedSectionVars false

namespace PoL.Props
open Spec Pol Verkle Sparse Trace

variable {G1 G2 GT : Type} [AddCommGroup G1] [Module Zr G1] [AddCommGroup G2] [Module Zr G2]
  [AddCommGroup GT] [Module Zr GT] [DecidableEq G1] [DecidableEq GT]

/-- C119, first part: if the calls of a session return although the database cut any of its values short in between (to no
bytes, or to any number of first bytes), they return what they return over a database that keeps everything. -/
theorem C119_cuts_change_no_answer (E : Curve G1 G2 GT) (env : Env) (α α' : Zr) (fanOut : UInt16) (treeType : TreeType)
    {db db' : Db} (hdb : CutSome db db') (cs : List CutCall) (q : Held G1 G2 GT) (seen : List Seen)
    (h : cutSession E env α α' fanOut treeType db' cs = some (q, seen)) :
    ∃ p, session E env α α' fanOut treeType db (uncutCalls cs) = some (p, seen) ∧ SameButCut p q := by
  have hb : Below (fun x y => SameButCut x.1 y.1 ∧ x.2 = y.2) (session E env α α' fanOut treeType db (uncutCalls cs))
      (cutSession E env α α' fanOut treeType db' cs) := by
    unfold session cutSession
    exact below_bind_eq fun r => cutCalls_below (p := ⟨newLiabilitySet E α' r.2 db r.1, r.2, r.1, [], [], []⟩)
      (q := ⟨newLiabilitySet E α' r.2 db' r.1, r.2, r.1, [], [], []⟩) E env
      ⟨rfl, rfl, ⟨List.prefix_refl _, Iff.rfl⟩, rfl, hdb, rfl, rfl, rfl, rfl, rfl⟩ cs
  rcases hb with hb | ⟨⟨p, l⟩, y, h1, h2, h3, h4⟩
  · rw [h] at hb
    exact absurd hb (by simp)
  · rw [h, Option.some.injEq] at h2
    subst h2
    dsimp only at h3 h4
    subst h4
    exact ⟨p, h1, h3⟩

/-- C119, second part: of the bytes of a vertex no beginning can be read, and what follows them does not matter. -/
theorem C119_vertex_bytes {E : Curve G1 G2 GT} (hE : E.Lawful) (v : Verkle.Vertex G1) (od ov : List UInt16)
    (hd : ∀ k, k ∈ od ↔ (v.digests k).isSome) (hv : ∀ k, k ∈ ov ↔ (v.values k).isSome) (hdn : od.Nodup) (hvn : ov.Nodup) :
    (∀ n < (v.bytes E od ov).length, Verkle.Vertex.fromBytes E ((v.bytes E od ov).take n) = none) ∧
    ∀ rest, Verkle.Vertex.fromBytes E (v.bytes E od ov ++ rest) = some v :=
  ⟨fromBytes_cut hE v od ov hdn hvn, fromBytes_append (fromBytes_bytes hE v od ov hd hv hdn hvn)⟩

/-- The set, with one value cut after `n` bytes. -/
def cutSet (ls : LiabilitySet G1 G2 GT) (key : Str) (n : ℕ) : LiabilitySet G1 G2 GT :=
  { ls with s := { ls.s with db := cutKey ls.s.db key n } }

theorem stored_cut {E : Curve G1 G2 GT} (hE : E.Lawful) {env : Env} (henv : env.Lawful) {α : Zr} {F L : ℕ}
    {ls ls' : LiabilitySet G1 G2 GT} (h : NewSet E α F L ls) (h0 : ∀ k, ls.s.db k = []) (hist : List (Str × ℤ))
    (hids : ValidIds ls.tree.id2Path F L hist) (hr : ls.sets E env hist = some ls') (q : List ℕ) (hqL : q.length < L)
    (hq : touched (byPath ls.tree.id2Path hist) q) (n : ℕ) (hn : n < (ls'.s.db (keyOf q)).length) :
    Verkle.Vertex.fromBytes E ((cutSet ls' (keyOf q) n).s.db (keyOf q)) = none := by
  have hL := h.pp.depth
  obtain ⟨-, t, s, ht, rfl⟩ := (sets_iff E env hist ls ls').1 hr
  obtain ⟨x, hx, -⟩ := stored_shape hE henv h.tree.bound.le h.tree.pp h.tree.fanOut h.tree.root (by omega) hids ht hqL hq
  have e : (cutSet { ls with tree := t, s := s } (keyOf q) n).s.db (keyOf q) = (s.db (keyOf q)).take n := by
    simp [cutSet, cutKey, Db.put]
  rw [e]
  dsimp only at hn
  rcases encoded_puts ht (keyOf q) with he | ⟨y, m, he⟩
  · rw [he, h0, fromBytes_nil] at hx
    cases hx
  · rw [he] at hn ⊢
    exact fromBytes_cut hE y _ _ (henv.digests_nodup m _) (henv.values_nodup m _) n hn

/-- C119, third part: a cut is noticed by every call that reads the value.  After any history of `Set`s on an empty database, if the
value of any vertex is cut anywhere, `Get` and `ProveLiability` panic for every written identifier below the vertex, and
`ProveTot` panics if it is the root. -/
theorem C119_cut_is_noticed {E : Curve G1 G2 GT} (hE : E.Lawful) {env : Env} (henv : env.Lawful) {α : Zr} {F L : ℕ}
    {ls ls' : LiabilitySet G1 G2 GT} (h : NewSet E α F L ls) (h0 : ∀ k, ls.s.db k = []) (hist : List (Str × ℤ))
    (hids : ValidIds ls.tree.id2Path F L hist) (hr : ls.sets E env hist = some ls') (id : Str) (a : ℤ) (hid : (id, a) ∈ hist)
    (p : List ℕ) (hp : ls.tree.id2Path id = some p) (q : List ℕ) (hq : q <+: p) (hne : q ≠ p) (n : ℕ)
    (hn : n < (ls'.s.db (keyOf q)).length) :
    (cutSet ls' (keyOf q) n).get E env id = none ∧
    (∀ rnd, (cutSet ls' (keyOf q) n).proveLiability E env rnd id = none) ∧
    (q = [] → (cutSet ls' (keyOf q) n).proveTot E = none) := by
  have hL := h.pp.depth
  obtain ⟨p', hp', hpL, hpF⟩ := hids _ hid
  rw [hp, Option.some.injEq] at hp'
  subst hp'
  have hql : q.length < L := by
    rw [← hpL]
    exact lt_of_le_of_ne hq.length_le fun e => hne (hq.eq_of_length e)
  have htp : (p, a) ∈ byPath ls.tree.id2Path hist := List.mem_map.2 ⟨_, hid, by simp [hp]⟩
  have hcut := stored_cut hE henv h h0 hist hids hr q hql ⟨_, htp, hq⟩ n hn
  obtain ⟨-, t, s, ht, rfl⟩ := (sets_iff E env hist ls ls').1 hr
  have hown := own_of_puts hE henv h.tree.bound.le h.tree.pp h.tree.fanOut h.tree.root (by omega) hist hids ht
  obtain ⟨r, hg⟩ := own_get_returns hown id p hp hpL
  have hc := get_calls h.tree.root hown hids id p hp hpL [] hg
  have hnone : t.get E env id (cutSet { ls with tree := t, s := s } (keyOf q) n).s.db = none := by
    cases e : t.get E env id (cutSet { ls with tree := t, s := s } (keyOf q) n).s.db with
    | none => rfl
    | some r' =>
      have hd := treeGet_decodes E env t id s.db (cutSet { ls with tree := t, s := s } (keyOf q) n).s.db [] hc e (keyOf q) (by
        dsimp only
        unfold readAccesses
        rw [if_pos ⟨_, htp, List.prefix_refl p⟩, List.nil_append]
        refine List.mem_map.2 ⟨q.length, List.mem_range.2 (by omega), ?_⟩
        exact congrArg (fun x => Trace.Access.get (keyOf x)) (List.prefix_iff_eq_take.1 hq).symm)
      rcases hd with hd | hd
      · cases hd
      · rw [hcut] at hd
        cases hd
  refine ⟨?_, fun rnd => ?_, ?_⟩
  · unfold LiabilitySet.get
    show (t.get E env id (cutSet { ls with tree := t, s := s } (keyOf q) n).s.db >>= fun v => _) = none
    rw [hnone]
    rfl
  · unfold LiabilitySet.proveLiability
    show (t.id2Path id >>= fun path => t.get E env id (cutSet { ls with tree := t, s := s } (keyOf q) n).s.db >>= fun v => _) = none
    rw [hnone]
    cases t.id2Path id <;> rfl
  · rintro rfl
    unfold LiabilitySet.proveTot
    show (Verkle.Vertex.fromBytes E ((cutSet { ls with tree := t, s := s } (keyOf []) n).s.db []) >>= fun v => _) = none
    rw [show Verkle.Vertex.fromBytes E ((cutSet { ls with tree := t, s := s } (keyOf []) n).s.db []) = none from hcut]
    rfl

/-- The limit of C119: `Root` remembers the bytes that it read before it decodes them (`pol/pol.go:484-488`).  If these were cut (and not
cut to nothing), every later `Root` panics, although the database is whole again.  No bytes at all are not remembered. -/
theorem C119_cut_root_is_remembered (E : Curve G1 G2 GT) (ls : LiabilitySet G1 G2 GT) (db : Db)
    (hcut : Verkle.Vertex.fromBytes E (db []) = none) (hne : db [] ≠ []) (hm : ls.memRoot = [])
    {r : Sparse.Vertex Data} (hroot : ls.tree.root = some r) (hd : r.data = some (.key [])) :
    ({ ls with s := { ls.s with db := db } } : LiabilitySet G1 G2 GT).root E = none ∧
    ({ ls with memRoot := (Pol.memGet db ls.memRoot []).2 } : LiabilitySet G1 G2 GT).root E = none ∧
    Pol.memGet (fun _ => []) ls.memRoot [] = ([], ls.memRoot) := by
  have e : Pol.memGet db ls.memRoot [] = (db [], db []) := by
    rw [hm]
    rfl
  refine ⟨?_, ?_, by rw [hm]; rfl⟩
  · unfold LiabilitySet.root
    dsimp only
    rw [hroot]
    dsimp only
    rw [hd]
    show (Verkle.Vertex.fromBytes E (Pol.memGet db ls.memRoot []).1 >>= fun v => _) = none
    rw [e, hcut]
    rfl
  · unfold LiabilitySet.root
    dsimp only
    rw [hroot]
    dsimp only
    rw [hd]
    rw [e]
    have e2 : Pol.memGet ls.s.db (db []) [] = (db [], db []) := by
      unfold Pol.memGet
      rw [if_pos ⟨rfl, by simpa using hne⟩]
    dsimp only
    show (Verkle.Vertex.fromBytes E (Pol.memGet ls.s.db (db []) []).1 >>= fun v => _) = none
    rw [e2, hcut]
    rfl

/-- The limit of C119: a value that is overwritten in place, and only to a part, may be read as a vertex that never was, with the
new amounts and the old commitments. -/
theorem C119_mixed_value_is_read {E : Curve G1 G2 GT} (hE : E.Lawful) (hg : ∀ p p', (E.g1Bytes p).length = (E.g1Bytes p').length)
    (old new : Verkle.Vertex G1) (od ov od' ov' : List UInt16) (hd : ∀ k, k ∈ od ↔ (new.digests k).isSome)
    (hv : ∀ k, k ∈ ov ↔ (new.values k).isSome) (hdn : od.Nodup) (hvn : ov.Nodup) (hdl : od'.length = od.length)
    (hvl : ov'.length = ov.length) (hW : old.W.isSome = new.W.isSome) :
    ∃ n, Verkle.Vertex.fromBytes E ((new.bytes E od ov).take n ++ (old.bytes E od' ov').drop n)
      = some { new with V := old.V, W := old.W } := by
  have hf : (frontBytes old od' ov').length = (frontBytes new od ov).length := by
    rw [front_length, front_length, hdl, hvl]
  have hpt : (pointBytes E old).length = (pointBytes E new).length := by
    unfold pointBytes
    simp only [List.length_append, Asn1.octets, tlv_length, hg old.V new.V]
    refine congrArg (fun x => derSize (E.g1Bytes new.V).length + derSize x) ?_
    cases h1 : old.W with
    | none =>
      rw [h1] at hW
      cases h2 : new.W with
      | none => rfl
      | some w => rw [h2] at hW; cases hW
    | some w =>
      rw [h1] at hW
      cases h2 : new.W with
      | none => rw [h2] at hW; cases hW
      | some w' => exact hg w w'
  refine ⟨(0x30 :: Asn1.encLen ((frontBytes new od ov).length + (pointBytes E new).length) ++ frontBytes new od ov).length, ?_⟩
  rw [bytes_parts E new, bytes_parts E old, List.take_left]
  rw [show (0x30 :: Asn1.encLen ((frontBytes new od ov).length + (pointBytes E new).length) ++ frontBytes new od ov).length
    = (0x30 :: Asn1.encLen ((frontBytes old od' ov').length + (pointBytes E old).length) ++ frontBytes old od' ov').length by
      rw [hf, hpt]
      simp only [List.length_append, List.length_cons, hf], List.drop_left]
  have hb := bytes_parts E { new with V := old.V, W := old.W } od ov
  have e1 : frontBytes { new with V := old.V, W := old.W } od ov = frontBytes new od ov := rfl
  have e2 : pointBytes E { new with V := old.V, W := old.W } = pointBytes E old := rfl
  rw [e1, e2, hpt] at hb
  rw [← hb]
  exact fromBytes_bytes hE _ od ov hd hv hdn hvn

/-! ## The hypotheses can be met -/

/-- For `toyHist`, the 191 bytes of the vertex over `010` and `012` cut after 190: `Get` of `012` panics. -/
example : ∃ ls ls' : LiabilitySet Zr Zr Zr, NewSet toyCurve 2 3 3 ls ∧ ls.sets toyCurve toyEnv toyHist = some ls' ∧
    (cutSet ls' (keyOf [0, 1]) 190).get toyCurve toyEnv ['0', '1', '2'] = none := by
  obtain ⟨pp, hpp⟩ := toy_fits
  obtain ⟨ls, hls⟩ : ∃ ls : LiabilitySet Zr Zr Zr, ls = ⟨toyTree, pp, [], ⟨fun _ => [], 0⟩⟩ := ⟨_, rfl⟩
  have h : NewSet toyCurve 2 3 3 ls := by rw [hls]; exact ⟨toyTree_new, hpp, rfl⟩
  have ht : ls.tree = toyTree := by rw [hls]
  have h0 : ∀ k, ls.s.db k = [] := by rw [hls]; exact fun _ => rfl
  have hids : ValidIds ls.tree.id2Path 3 3 toyHist := by rw [ht]; exact toyHist_valid
  obtain ⟨ls', hs⟩ := C43_sets_return toyCurve_lawful toyEnv_lawful h toyHist hids (by decide)
  refine ⟨ls, ls', h, hs, ?_⟩
  have hl : (ls'.s.db (keyOf [0, 1])).length = 191 := by
    rw [C117_value_size toyCurve_lawful toyEnv_lawful h h0 toyHist hids hs 32 (fun p => zrBytes_length p) [0, 1]
      (by rw [ht]; decide), ht, show childCount (byPath toyTree.id2Path toyHist) [0, 1] = 2 by decide]
    norm_num [vertexSize, mapSize, derSize]
  exact (C119_cut_is_noticed toyCurve_lawful toyEnv_lawful h h0 toyHist hids hs ['0', '1', '2'] 30 (by decide) [0, 1, 2]
    (by rw [ht]; decide) [0, 1] (by decide) (by decide) 190 (by omega)).1

/-- The session of `hash80_session`, with a value cut after five bytes that the later calls do not need: all calls return, and the total of 5 is
accepted. -/
example : ∃ q, cutSession hash80Curve toyEnv 2 3 255 .sparse (fun _ => [])
      [.call (.set ('8' :: List.replicate 63 '0') 5), .call .proveTot, .call .root, .cut [] 5, .call (.verifyTotal 0 0)] =
      some (q, [.nothing, .total 5, .isRoot true, .verdict true]) := by
  obtain ⟨s, hs⟩ := hash80_session
  unfold session at hs
  obtain ⟨r, hr, hs⟩ := Option.bind_eq_some_iff.1 hs
  simp only [apiCalls, Option.bind_eq_bind, Option.pure_def, Option.bind_some] at hs
  obtain ⟨r1, h1, hs⟩ := Option.bind_eq_some_iff.1 hs
  obtain ⟨t1, hs, e1⟩ := Option.bind_eq_some_iff.1 hs
  obtain ⟨r2, h2, hs⟩ := Option.bind_eq_some_iff.1 hs
  obtain ⟨t2, hs, e2⟩ := Option.bind_eq_some_iff.1 hs
  obtain ⟨r3, h3, hs⟩ := Option.bind_eq_some_iff.1 hs
  obtain ⟨t3, hs, e3⟩ := Option.bind_eq_some_iff.1 hs
  obtain ⟨r4, h4, e4⟩ := Option.bind_eq_some_iff.1 hs
  rw [Option.some.injEq] at e1 e2 e3 e4
  subst e4 e3 e2
  have e1 := (Prod.mk.inj e1).2
  dsimp only at e1
  unfold cutSession
  refine ⟨{ r4.1 with ls := { r3.1.ls with s := { r3.1.ls.s with db := cutKey r3.1.ls.s.db [] 5 } } }, ?_⟩
  simp only [apiCall, Option.bind_eq_bind, Option.pure_def] at h4
  obtain ⟨t, ht, h4⟩ := Option.bind_eq_some_iff.1 h4
  obtain ⟨w, hw, h4⟩ := Option.bind_eq_some_iff.1 h4
  obtain ⟨v, hv, h4⟩ := Option.bind_eq_some_iff.1 h4
  rw [Option.some.injEq] at h4
  subst h4
  have e5 : apiCall hash80Curve toyEnv
      { r3.1 with ls := { r3.1.ls with s := { r3.1.ls.s with db := cutKey r3.1.ls.s.db [] 5 } } } (.verifyTotal 0 0) =
      some ({ r3.1 with ls := { r3.1.ls with s := { r3.1.ls.s with db := cutKey r3.1.ls.s.db [] 5 } } }, .verdict v) := by
    simp only [apiCall, Option.bind_eq_bind, Option.pure_def]
    rw [ht, Option.bind_some, hw, Option.bind_some, hv, Option.bind_some]
  simp only [cutCalls, hr, h1, h2, h3, e5, Option.bind_eq_bind, Option.pure_def, Option.bind_some]
  rw [e1]

end PoL.Props
