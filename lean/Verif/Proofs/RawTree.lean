import Verif.Proofs.RawArg
import Verif.Proofs.VerkleCodec
import Verif.Spec.Scalars

/-!
# Residues of the integer model: the Verkle tree
-/

set_option linter.unusedSectionVars false
set_option linter.unusedVariables false

namespace PoL.Raw

open BP Verkle Pol

variable {G1 G2 GT : Type} [AddCommGroup G1] [Module Zr G1] [AddCommGroup G2] [Module Zr G2]
  [AddCommGroup GT] [Module Zr GT]
variable {S : ScalarLib}

theorem reduced_zero : Reduced 0 := ⟨le_refl _, by unfold order; norm_num⟩

/-- Every entry is reduced. -/
def IntMap.Red (m : IntMap) : Prop := ∀ k x, m k = some x → Reduced x

/-- Every scalar is reduced. -/
structure Vertex.Red (v : Vertex G1) : Prop where
  bf : Reduced v.blindingFactor
  sum : Reduced v.sum
  values : v.values.Red
  digests : v.digests.Red

theorem IntMap.res_set (m : IntMap) (k : UInt16) (x : ℤ) : (m.set k x).res = m.res.set k (PoL.res x) := by
  funext k'
  unfold IntMap.res IntMap.set ZrMap.set
  split_ifs <;> rfl

theorem IntMap.Red.set {m : IntMap} (h : m.Red) (k : UInt16) {x : ℤ} (hx : Reduced x) : (m.set k x).Red := by
  intro k' y hy
  unfold IntMap.set at hy
  split_ifs at hy
  · rwa [← Option.some.inj hy]
  · exact h k' y hy

theorem IntMap.res_none : IntMap.res (fun _ => none) = ZrMap.empty := rfl

theorem IntMap.red_none : IntMap.Red (fun _ => none) := fun _ _ h => by cases h

theorem IntMap.getD_res (m : IntMap) (k : UInt16) : PoL.res ((m k).getD 0) = (m.res k).getD (intToZr 0) := by
  unfold IntMap.res
  cases m k <;> simp [PoL.res, intToZr]

theorem IntMap.Red.getD {m : IntMap} (h : m.Red) (k : UInt16) : Reduced ((m k).getD 0) := by
  cases e : m k with
  | none => exact reduced_zero
  | some x => exact h k x e

theorem sim_decodeFold (l : List Asn1.KV) : ∀ acc : IntMap,
    (l.foldlM (fun (m : IntMap) (kv : Asn1.KV) => do return IntMap.set m (← uint16 kv.K) (beToNat kv.V : ℤ)) acc).map IntMap.res
      = l.foldlM (fun m kv => do return ZrMap.set m (← uint16 kv.K) (newZrFromBytes kv.V)) acc.res := by
  induction l with
  | nil => intro acc; rfl
  | cons kv l ih =>
    intro acc
    rw [List.foldlM_cons, List.foldlM_cons]
    refine sim_bind (c := IntMap.res) ?_ fun m _ => ih m
    refine sim_same fun k _ => ?_
    simp only [Option.pure_def, Option.map_some, IntMap.res_set]
    simp [PoL.res, newZrFromBytes]

theorem sim_decodeMap (l : List Asn1.KV) : (decodeMap l).map IntMap.res = Verkle.decodeMap l := sim_decodeFold l _

theorem decodeFold_red (l : List Asn1.KV) (hl : ∀ kv ∈ l, Reduced (beToNat kv.V)) : ∀ (acc m : IntMap), acc.Red →
    l.foldlM (fun (m : IntMap) (kv : Asn1.KV) => do return IntMap.set m (← uint16 kv.K) (beToNat kv.V : ℤ)) acc = some m → m.Red := by
  induction l with
  | nil => intro acc m ha h; cases h; exact ha
  | cons kv l ih =>
    intro acc m ha h
    rw [List.foldlM_cons] at h
    obtain ⟨m1, h1, h2⟩ := Option.bind_eq_some_iff.1 h
    obtain ⟨k, hk, h3⟩ := Option.bind_eq_some_iff.1 h1
    cases h3
    exact ih (fun kv' hkv => hl kv' (by simp [hkv])) _ m (ha.set k (hl kv (by simp))) h2

theorem sim_fromBytes (E : Curve G1 G2 GT) (b : Bytes) :
    (Vertex.fromBytes E b).map Vertex.res = Verkle.Vertex.fromBytes E b := by
  refine sim_same fun rv _ => sim_same fun V _ => ?_
  dsimp only
  split_ifs
  · refine sim_same fun W _ => sim_bind (sim_decodeMap rv.digests) fun d _ => sim_bind (sim_decodeMap rv.values) fun vals _ => ?_
    simp [Vertex.res, newZrFromBytes]
  · refine sim_same fun W _ => sim_bind (sim_decodeMap rv.digests) fun d _ => sim_bind (sim_decodeMap rv.values) fun vals _ => ?_
    simp [Vertex.res, newZrFromBytes]

theorem encodeMap_eq (hS : S.Lawful) {m : IntMap} (hm : m.Red) (o : List UInt16) :
    encodeMap S m o = Verkle.encodeMap m.res o := by
  unfold encodeMap Verkle.encodeMap
  refine List.map_congr_left fun k _ => ?_
  rw [hS.bytes_red _ (hm.getD k)]
  have := IntMap.getD_res m k
  rw [show intToZr 0 = 0 by simp [intToZr]] at this
  rw [← this]

theorem bytes_eq (hS : S.Lawful) (E : Curve G1 G2 GT) {v : Vertex G1} (h : v.Red) (od ov : List UInt16) :
    v.bytes S E od ov = v.res.bytes E od ov := by
  unfold Vertex.bytes Verkle.Vertex.bytes
  rw [encodeMap_eq hS h.values, encodeMap_eq hS h.digests, hS.bytes_red _ h.bf, hS.bytes_red _ h.sum]
  rfl

theorem reduced_zrBytes (x : Zr) : Reduced (beToNat (zrBytes x)) := by
  rw [beToNat_zrBytes]
  exact reduced_canon x

theorem red_of_bytes {E : Curve G1 G2 GT} (hE : E.Lawful) (w : Verkle.Vertex G1) (od ov : List UInt16) (hdn : od.Nodup)
    (hvn : ov.Nodup) {v : Vertex G1} (h : Vertex.fromBytes E (w.bytes E od ov) = some v) : v.Red := by
  unfold Vertex.fromBytes Verkle.Vertex.bytes at h
  rw [Asn1.unmarshal_marshal] at h
  rotate_left
  · simp [zrBytes, natToBE_length]
  · simp [zrBytes, natToBE_length]
  · exact hE.g1_len _
  · cases w.W with
    | none => simp
    | some w => exact hE.g1_len _
  · exact encodeMap_small _ _
  · exact encodeMap_small _ _
  · simpa [Verkle.encodeMap] using nodup_uint16_length _ hvn
  · simpa [Verkle.encodeMap] using nodup_uint16_length _ hdn
  have hm : ∀ (m : ZrMap) (o : List UInt16), ∀ kv ∈ Verkle.encodeMap m o, Reduced (beToNat kv.V) := by
    intro m o kv hkv
    obtain ⟨k, -, rfl⟩ := List.mem_map.1 hkv
    exact reduced_zrBytes _
  simp only [Option.bind_eq_bind, Option.bind_some] at h
  obtain ⟨V, -, h⟩ := Option.bind_eq_some_iff.1 h
  have key : ∀ W : Option G1, ((decodeMap (Verkle.encodeMap w.digests od)).bind fun d => (decodeMap (Verkle.encodeMap w.values ov)).bind fun vals =>
      pure (f := Option) (Vertex.mk (beToNat (zrBytes w.blindingFactor) : ℤ) vals d (beToNat (zrBytes w.sum) : ℤ) V W)) = some v → v.Red := by
    intro W h
    obtain ⟨d, hd, h⟩ := Option.bind_eq_some_iff.1 h
    obtain ⟨vals, hv, h⟩ := Option.bind_eq_some_iff.1 h
    cases h
    exact ⟨reduced_zrBytes _, reduced_zrBytes _, decodeFold_red _ (hm _ _) _ _ IntMap.red_none hv,
      decodeFold_red _ (hm _ _) _ _ IntMap.red_none hd⟩
  split_ifs at h
  · obtain ⟨W, -, h⟩ := Option.bind_eq_some_iff.1 h
    exact key W h
  · exact key none h

/-- Whatever is read back from the database is reduced. -/
def Good (E : Curve G1 G2 GT) (db : Db) : Prop := ∀ k v, Vertex.fromBytes E (db k) = some v → v.Red

theorem good_put {E : Curve G1 G2 GT} {db : Db} (h : Good E db) (k : Str) {b : Bytes}
    (hb : ∀ v, Vertex.fromBytes E b = some v → v.Red) : Good E (db.put k b) := by
  intro k' v hv
  unfold Db.put at hv
  split_ifs at hv
  · exact hb v hv
  · exact h k' v hv

theorem store_eq (hS : S.Lawful) (E : Curve G1 G2 GT) (env : Env) (key : Str) {v : Vertex G1} (h : v.Red) (s : State) :
    store S E env key v s = Verkle.store E env key v.res s := by
  unfold store Verkle.store
  rw [bytes_eq hS E h]
  rfl

theorem good_store {E : Curve G1 G2 GT} (hE : E.Lawful) {env : Env} (hv : env.Lawful) (key : Str) (w : Verkle.Vertex G1) {s : State}
    (h : Good E s.db) : Good E (Verkle.store E env key w s).db :=
  good_put h key fun v hb => red_of_bytes hE w _ _ (hv.digests_nodup _ _) (hv.values_nodup _ _) hb

theorem sim_fetch (E : Curve G1 G2 GT) (db : Db) (d : Option Data) :
    (fetchVertex E db d).map Vertex.res = Verkle.fetchVertex E db d := by
  refine sim_same fun x _ => sim_same fun k _ => ?_
  dsimp only
  split_ifs
  · rfl
  · exact sim_fromBytes E _

theorem fetch_red {E : Curve G1 G2 GT} {db : Db} (h : Good E db) {d : Option Data} {v : Vertex G1}
    (hv : fetchVertex E db d = some v) : v.Red := by
  obtain ⟨x, -, hv⟩ := Option.bind_eq_some_iff.1 hv
  obtain ⟨k, -, hv⟩ := Option.bind_eq_some_iff.1 hv
  dsimp only at hv
  split_ifs at hv
  exact h k v hv

theorem sim_digest (E : Curve G1 G2 GT) (v : Vertex G1) : (v.digest E).map PoL.res = v.res.digest E := sim_fe _

/-! ## The loops -/

/-- The variables of the first model. -/
def InnerAcc.res (a : InnerAcc) : Verkle.InnerAcc := ⟨a.sum, a.values.res, a.digests.res, resV a.m, resV a.d⟩

theorem sim_innerLoop (hS : S.Lawful) (E : Curve G1 G2 GT) (db : Db) : ∀ (l : List (Option Data)) (i : ℕ) (a : InnerAcc),
    (innerLoop S E db l i a).map InnerAcc.res = Verkle.innerLoop E db l i a.res
  | [], _, _ => rfl
  | none :: t, i, a => by
    unfold innerLoop Verkle.innerLoop
    rw [sim_innerLoop hS E db t]
    simp [InnerAcc.res, resV, PoL.res, intToZr]
  | some d :: t, i, a => by
    unfold innerLoop Verkle.innerLoop
    refine sim_bind (sim_fetch E db (some d)) fun v _ => sim_bind (sim_digest E v) fun x _ => ?_
    rw [sim_innerLoop hS E db t]
    simp only [InnerAcc.res, resV, PoL.res, IntMap.res_set, hS.plus_res, List.map_append, List.map_cons, List.map_nil, Vertex.res]

theorem innerLoop_red (hS : S.Lawful) {E : Curve G1 G2 GT} {db : Db} (hdb : Good E db) : ∀ (l : List (Option Data)) (i : ℕ)
    (a a' : InnerAcc), (l.filterMap id).length ≤ 1 → (a.sum ≠ 0 → l.filterMap id = []) → Reduced a.sum → a.values.Red →
    a.digests.Red → innerLoop S E db l i a = some a' → Reduced a'.sum ∧ a'.values.Red ∧ a'.digests.Red
  | [], _, a, a', _, _, hs, hv, hd, h => by cases h; exact ⟨hs, hv, hd⟩
  | none :: t, i, a, a', h1, h0, hs, hv, hd, h => by
    unfold innerLoop at h
    exact innerLoop_red hS hdb t (i + 1) ⟨a.sum, a.values, a.digests, a.m ++ [0], a.d ++ [0]⟩ a' (by simpa using h1) (by simpa using h0) hs hv hd h
  | some d :: t, i, a, a', h1, h0, hs, hv, hd, h => by
    have hz : a.sum = 0 := by
      by_contra hne
      simpa using h0 hne
    have ht : t.filterMap id = [] := by simpa using h1
    unfold innerLoop at h
    obtain ⟨v, hf, h⟩ := Option.bind_eq_some_iff.1 h
    obtain ⟨x, hx, h⟩ := Option.bind_eq_some_iff.1 h
    have rv := fetch_red hdb hf
    refine innerLoop_red hS hdb t (i + 1) _ a' (by rw [ht]; simp) (fun _ => ht) ?_ (hv.set _ rv.sum) (hd.set _ (fe_reduced hx)) h
    simp only
    rw [hz, hS.plus_small 0 v.sum le_rfl rv.sum.1 (by simpa using rv.sum.2), zero_add]
    exact rv.sum

/-- The variables of the first model. -/
def resLeaf (a : ℤ × IntMap × List ℤ) : Zr × ZrMap × List Zr := (PoL.res a.1, a.2.1.res, resV a.2.2)

theorem sim_leafLoop (hS : S.Lawful) : ∀ (l : List (Option Data)) (i : ℕ) (a : ℤ × IntMap × List ℤ),
    (leafLoop S l i a).map resLeaf = Verkle.leafLoop l i (resLeaf a)
  | [], _, _ => rfl
  | none :: t, i, (s, v, m) => by
    unfold leafLoop resLeaf Verkle.leafLoop
    rw [show (fun a : ℤ × IntMap × List ℤ => (PoL.res a.1, a.2.1.res, resV a.2.2)) = resLeaf from rfl, sim_leafLoop hS t]
    simp [resLeaf, resV, PoL.res, intToZr]
  | some d :: t, i, (s, v, m) => by
    unfold leafLoop
    rw [show resLeaf (s, v, m) = (PoL.res s, v.res, resV m) from rfl]
    unfold Verkle.leafLoop
    refine sim_same fun n _ => ?_
    rw [sim_leafLoop hS t]
    simp only [resLeaf, resV, PoL.res, IntMap.res_set, hS.plus_res, List.map_append, List.map_cons, List.map_nil, intToZr]

theorem leafLoop_red (hS : S.Lawful) : ∀ (l : List (Option Data)) (i : ℕ)
    (a a' : ℤ × IntMap × List ℤ), (l.filterMap id).length ≤ 1 → (∀ n, some (Data.amount n) ∈ l → Reduced n) →
    (a.1 ≠ 0 → l.filterMap id = []) → Reduced a.1 → a.2.1.Red →
    leafLoop S l i a = some a' → Reduced a'.1 ∧ a'.2.1.Red
  | [], _, a, a', _, _, _, hs, hv, h => by cases h; exact ⟨hs, hv⟩
  | none :: t, i, (s, v, m), a', h1, hn, h0, hs, hv, h => by
    unfold leafLoop at h
    exact leafLoop_red hS t (i + 1) (s, v, m ++ [0]) a' (by simpa using h1) (fun n h => hn n (by simp [h])) (by simpa using h0) hs hv h
  | some d :: t, i, (s, v, m), a', h1, hn, h0, hs, hv, h => by
    have hz : s = 0 := by
      by_contra hne
      simpa using h0 hne
    have ht : t.filterMap id = [] := by simpa using h1
    unfold leafLoop at h
    obtain ⟨n, hf, h⟩ := Option.bind_eq_some_iff.1 h
    have rn : Reduced n := by
      cases d with
      | key k => cases hf
      | amount n' =>
        cases hf
        exact hn n (by simp)
    refine leafLoop_red hS t (i + 1) _ a' (by rw [ht]; simp) (fun n h => hn n (by simp [h])) (fun _ => ht) ?_ (hv.set _ rn) h
    simp only
    rw [hz, hS.plus_small 0 n le_rfl rn.1 (by simpa using rn.2), zero_add]
    exact rn

/-! ## The callback -/

variable [DecidableEq G1] [DecidableEq GT]

/-- Two callbacks with the same effect, which leaves the database good. -/
def Same (E : Curve G1 G2 GT) (x y : Option (Option Data × State)) : Prop :=
  x = y ∧ ∀ d s, y = some (d, s) → Good E s.db ∧ d ≠ none

theorem Same.of_map {E : Curve G1 G2 GT} {x y : Option (Option Data × State)} (h : x.map id = y)
    (hg : ∀ d s, x = some (d, s) → Good E s.db ∧ d ≠ none) : Same E x y := by
  have := of_map_id h
  subst this
  exact ⟨rfl, hg⟩

theorem resV_lookup (m : IntMap) (n : ℕ) : resV ((List.range n).map fun i => (m (UInt16.ofNat i)).getD 0)
    = (List.range n).map fun i => (m.res (UInt16.ofNat i)).getD (intToZr 0) := by
  rw [resV, List.map_map]
  exact List.map_congr_left fun i _ => IntMap.getD_res m _

theorem resV_set (m : List ℤ) (i : ℕ) (x : ℤ) : resV (m.set i x) = (resV m).set i (PoL.res x) := by
  simp [resV, List.map_set]

theorem res_updateSum (hS : S.Lawful) (a b c : ℤ) :
    PoL.res (updateSum S a b c) = Verkle.updateSum (PoL.res a) (PoL.res b) (PoL.res c) := by
  simp [updateSum, Verkle.updateSum, PoL.res, hS.modAdd_res, hS.modSub_res]

theorem updateInnerLayer_same (hS : S.Lawful) {E : Curve G1 G2 GT} (hE : E.Lawful) (PP : PP G1 G2 GT) {env : Env} (hv : env.Lawful)
    (key : Str) (node : Option Data) (l : List (Option Data)) (index : ℕ) {s : State} (hdb : Good E s.db)
    (h1 : node = none → (l.filterMap id).length ≤ 1) :
    Same E (updateInnerLayer S E PP env key node l index s) (Verkle.updateInnerLayer E PP env key node l index s) := by
  cases node with
  | none =>
    unfold updateInnerLayer Verkle.updateInnerLayer
    have hr : ∀ a, innerLoop S E s.db l 0 ⟨0, fun _ => none, fun _ => none, [], []⟩ = some a → Reduced a.sum ∧ a.values.Red ∧ a.digests.Red :=
      fun a ha => innerLoop_red hS hdb l 0 _ a (h1 rfl) (fun h => absurd rfl h) reduced_zero IntMap.red_none IntMap.red_none ha
    refine Same.of_map ?_ ?_
    · refine sim_bind (c := InnerAcc.res) ?_ fun a ha => sim_eq ?_ fun V _ => sim_eq ?_ fun W _ => ?_
      · rw [sim_innerLoop hS]
        simp [InnerAcc.res, IntMap.res_none, resV, intToZr]
      · rw [ppCommit_eq hS]
        simp [resV, InnerAcc.res, res_c]
      · rw [ppCommit_eq hS]
        simp [resV, InnerAcc.res, PoL.res, intToZr]
      · obtain ⟨r1, r2, r3⟩ := hr a ha
        dsimp only
        rw [store_eq hS E env key (v := ⟨canon (env.rand s.tick), a.values, a.digests, a.sum, V, some W⟩) ⟨reduced_canon _, r1, r2, r3⟩]
        simp only [Vertex.res, InnerAcc.res, res_canon]
        rfl
    · intro d s' h
      obtain ⟨a, ha, h⟩ := Option.bind_eq_some_iff.1 h
      obtain ⟨V, -, h⟩ := Option.bind_eq_some_iff.1 h
      obtain ⟨W, -, h⟩ := Option.bind_eq_some_iff.1 h
      obtain ⟨r1, r2, r3⟩ := hr a ha
      dsimp only at h
      rw [store_eq hS E env key (v := ⟨canon (env.rand s.tick), a.values, a.digests, a.sum, V, some W⟩) ⟨reduced_canon _, r1, r2, r3⟩] at h
      cases h
      exact ⟨good_store hE hv _ _ hdb, by simp⟩
  | some nd =>
    unfold updateInnerLayer Verkle.updateInnerLayer
    refine Same.of_map ?_ ?_
    · refine sim_bind (sim_fetch E s.db _) fun v hf => sim_same fun dd _ => sim_bind (sim_fetch E s.db dd) fun dv hd =>
        sim_bind (sim_digest E dv) fun x hx => ?_
      have rv := fetch_red hdb hf
      have rd := fetch_red hdb hd
      refine sim_bind (c := resV) ?_ fun d _ => ?_
      · refine sim_mapM (fun i => ?_) _
        rw [show dv.res.sum = PoL.res dv.sum from rfl, show v.res.values = v.values.res from rfl, ← IntMap.res_set,
          show v.res.digests = v.digests.res from rfl, ← IntMap.res_set]
        unfold IntMap.res
        rw [Option.isSome_map]
        split_ifs
        · rfl
        · simp [PoL.res, intToZr]
      · simp only [List.length_map, List.length_range]
        split_ifs
        · rfl
        · refine sim_eq ?_ fun V _ => sim_eq (ppCommit_eq hS PP d) fun W _ => ?_
          · rw [ppCommit_eq hS, resV_set, resV_set, resV_lookup, IntMap.res_set, res_updateSum hS, IntMap.getD_res]
            rfl
          · rw [store_eq hS]
            rotate_left
            · exact ⟨rv.bf, hS.modAdd_red _ _, rv.values.set _ rd.sum, rv.digests.set _ (fe_reduced hx)⟩
            · have := res_updateSum hS v.sum ((v.values (UInt16.ofNat index)).getD 0) dv.sum
              rw [IntMap.getD_res] at this
              simp only [Vertex.res, IntMap.res_set]
              simp only [PoL.res] at this ⊢
              rw [this]
              rfl
    · intro d s' h
      obtain ⟨v, hf, h⟩ := Option.bind_eq_some_iff.1 h
      obtain ⟨dd, -, h⟩ := Option.bind_eq_some_iff.1 h
      obtain ⟨dv, hd, h⟩ := Option.bind_eq_some_iff.1 h
      obtain ⟨x, hx, h⟩ := Option.bind_eq_some_iff.1 h
      obtain ⟨dl, -, h⟩ := Option.bind_eq_some_iff.1 h
      dsimp only at h
      split_ifs at h
      obtain ⟨V, -, h⟩ := Option.bind_eq_some_iff.1 h
      obtain ⟨W, -, h⟩ := Option.bind_eq_some_iff.1 h
      have rv := fetch_red hdb hf
      have rd := fetch_red hdb hd
      rw [store_eq hS] at h
      rotate_left
      · exact ⟨rv.bf, hS.modAdd_red _ _, rv.values.set _ rd.sum, rv.digests.set _ (fe_reduced hx)⟩
      · cases h
        exact ⟨good_store hE hv _ _ hdb, by simp⟩

theorem updateLeafLayer_same (hS : S.Lawful) {E : Curve G1 G2 GT} (hE : E.Lawful) (PP : PP G1 G2 GT) {env : Env} (hv : env.Lawful)
    (key : Str) (node : Option Data) (l : List (Option Data)) (index : ℕ) {s : State} (hdb : Good E s.db)
    (h1 : node = none → (l.filterMap id).length ≤ 1) (hn : node = none → ∀ n, some (Data.amount n) ∈ l → Reduced n)
    (hi : ∀ n, l[index]? = some (some (Data.amount n)) → Reduced n) :
    Same E (updateLayerAboveLeaves S E PP env key node l index s) (Verkle.updateLayerAboveLeaves E PP env key node l index s) := by
  cases node with
  | none =>
    unfold updateLayerAboveLeaves Verkle.updateLayerAboveLeaves
    have hr : ∀ a, leafLoop S l 0 (0, fun _ => none, []) = some a → Reduced a.1 ∧ a.2.1.Red :=
      fun a ha => leafLoop_red hS l 0 _ a (h1 rfl) (hn rfl) (fun h => absurd rfl h) reduced_zero IntMap.red_none ha
    refine Same.of_map ?_ ?_
    · refine sim_bind (c := resLeaf) ?_ fun a ha => sim_eq ?_ fun V _ => ?_
      · rw [sim_leafLoop hS]
        simp [resLeaf, IntMap.res_none, resV, PoL.res, intToZr]
      · rw [ppCommit_eq hS]
        simp [resV, res_c]
      · obtain ⟨r1, r2⟩ := hr a ha
        dsimp only
        rw [store_eq hS E env key (v := ⟨canon (env.rand s.tick), a.2.1, fun _ => none, a.1, V, none⟩) ⟨reduced_canon _, r1, r2, IntMap.red_none⟩]
        simp only [Vertex.res, res_canon]
        rfl
    · intro d s' h
      obtain ⟨a, ha, h⟩ := Option.bind_eq_some_iff.1 h
      obtain ⟨V, -, h⟩ := Option.bind_eq_some_iff.1 h
      obtain ⟨r1, r2⟩ := hr a ha
      dsimp only at h
      rw [store_eq hS E env key (v := ⟨canon (env.rand s.tick), a.2.1, fun _ => none, a.1, V, none⟩) ⟨reduced_canon _, r1, r2, IntMap.red_none⟩] at h
      cases h
      exact ⟨good_store hE hv _ _ hdb, by simp⟩
  | some nd =>
    unfold updateLayerAboveLeaves Verkle.updateLayerAboveLeaves
    have hr : ∀ dd x n, l[index]? = some dd → dd = some x → x.int64 = some n → Reduced n := by
      intro dd x n h1 h2 h3
      subst h2
      cases x with
      | key k => cases h3
      | amount n' =>
        cases h3
        exact hi n h1
    refine Same.of_map ?_ ?_
    · refine sim_bind (sim_fetch E s.db _) fun v hf => sim_same fun dd h1 => sim_same fun x h2 => sim_same fun n h3 => ?_
      have rv := fetch_red hdb hf
      have rn := hr dd x n h1 h2 h3
      have em : resV (((List.range PP.N).map fun i => (v.values (UInt16.ofNat i)).getD 0)
            ++ [updateSum S v.sum ((v.values (UInt16.ofNat index)).getD 0) n])
          = ((List.range PP.N).map fun i => (v.res.values (UInt16.ofNat i)).getD (intToZr 0))
            ++ [Verkle.updateSum v.res.sum ((v.res.values (UInt16.ofNat index)).getD (intToZr 0)) (intToZr n)] := by
        rw [resV_append, resV_lookup]
        simp only [resV, List.map_cons, List.map_nil]
        rw [res_updateSum hS, IntMap.getD_res]
        rfl
      refine sim_eq ?_ fun V1 _ => sim_eq ?_ fun V2 _ => ?_
      · rw [update_eq, em]
        rfl
      · rw [update_eq, em, IntMap.res_set, res_updateSum hS, IntMap.getD_res]
        rfl
      · dsimp only
        rw [store_eq hS]
        rotate_left
        · exact ⟨rv.bf, hS.modAdd_red _ _, rv.values.set _ rn, rv.digests⟩
        · have := res_updateSum hS v.sum ((v.values (UInt16.ofNat index)).getD 0) n
          rw [IntMap.getD_res] at this
          simp only [Vertex.res, IntMap.res_set]
          simp only [PoL.res] at this ⊢
          rw [this]
          rfl
    · intro d s' h
      obtain ⟨v, hf, h⟩ := Option.bind_eq_some_iff.1 h
      obtain ⟨dd, h1, h⟩ := Option.bind_eq_some_iff.1 h
      obtain ⟨x, h2, h⟩ := Option.bind_eq_some_iff.1 h
      obtain ⟨n, h3, h⟩ := Option.bind_eq_some_iff.1 h
      obtain ⟨V1, -, h⟩ := Option.bind_eq_some_iff.1 h
      obtain ⟨V2, -, h⟩ := Option.bind_eq_some_iff.1 h
      have rv := fetch_red hdb hf
      dsimp only at h
      rw [store_eq hS] at h
      rotate_left
      · exact ⟨rv.bf, hS.modAdd_red _ _, rv.values.set _ (hr dd x n h1 h2 h3), rv.digests⟩
      · cases h
        exact ⟨good_store hE hv _ _ hdb, by simp⟩

/-! ## `Put` and `Set` -/

/-- A vertex of the sparse tree without data has no descendants, and so on below. -/
inductive OK : Sparse.Vertex Data → Prop
  | mk (k : Str) (d : Option Data) (desc : List (ℕ × Sparse.Vertex Data)) : (d = none → desc = []) →
      (∀ e ∈ desc, OK e.2) → OK (.mk k d desc)

theorem OK.desc {v : Sparse.Vertex Data} (h : OK v) : v.data = none → v.desc = [] := by
  cases h with
  | mk k d l h1 _ => exact h1

theorem OK.under {v : Sparse.Vertex Data} (h : OK v) : ∀ e ∈ v.desc, OK e.2 := by
  cases h with
  | mk k d l _ h2 => exact h2

theorem descSet_mem' {α : Type} (l : List (ℕ × α)) (p : ℕ) (u : α) (e : ℕ × α) (h : e ∈ Sparse.descSet l p u) :
    e = (p, u) ∨ e ∈ l := by
  induction l with
  | nil => exact .inl (by simpa [Sparse.descSet] using h)
  | cons a t ih =>
    obtain ⟨k, w⟩ := a
    rw [Sparse.descSet] at h
    split_ifs at h
    · rcases List.mem_cons.1 h with h | h
      · exact .inl h
      · exact .inr (List.mem_cons_of_mem _ h)
    · rcases List.mem_cons.1 h with h | h
      · exact .inr (h ▸ List.mem_cons_self ..)
      · exact (ih h).imp id fun h => List.mem_cons_of_mem _ h

theorem filterMap_single {α : Type} (n p : ℕ) (x : Option α) :
    (((List.range n).map fun i => if i = p then x else none).filterMap id).length ≤ 1 := by
  induction n with
  | zero => simp
  | succ n ih =>
    rw [List.range_succ, List.map_append, List.filterMap_append, List.length_append]
    rcases eq_or_ne n p with h | h
    · have h0 : (((List.range n).map fun i => if i = p then x else none).filterMap id) = [] := by
        rw [List.filterMap_eq_nil_iff]
        intro y hy
        obtain ⟨i, hi, rfl⟩ := List.mem_map.1 hy
        have := List.mem_range.1 hi
        rw [if_neg (by omega)]
        rfl
      rw [h0]
      cases x <;> simp [h]
    · simpa [h] using ih

theorem rawData_single {p F : ℕ} {u : Sparse.Vertex Data} {raw : List (Option Data)} (h : Sparse.rawData [(p, u)] F = some raw) :
    raw = (List.range F).map fun i => if i = p then u.data else none := by
  unfold Sparse.rawData at h
  split_ifs at h
  cases h
  refine List.map_congr_left fun i _ => ?_
  simp only [Sparse.descGet, eq_comm (a := p)]
  split_ifs <;> rfl

theorem putAt_same (hS : S.Lawful) {E : Curve G1 G2 GT} (hE : E.Lawful) (PP : PP G1 G2 GT) {env : Env} (hv : env.Lawful)
    (F : ℕ) {n : ℤ} (hn : Reduced n) : ∀ (path : List ℕ) (ps : Str) (v : Sparse.Vertex Data) (s : State), OK v → Good E s.db →
    Sparse.putAt F (updateInnerVertex S E PP env) (some (.amount n)) path ps v s
        = Sparse.putAt F (Verkle.updateInnerVertex E PP env) (some (.amount n)) path ps v s
      ∧ ∀ v' s', Sparse.putAt F (Verkle.updateInnerVertex E PP env) (some (.amount n)) path ps v s = some (v', s') →
        OK v' ∧ v'.data ≠ none ∧ Good E s'.db ∧ (path = [] → v'.data = some (.amount n)) := by
  intro path
  induction path with
  | nil =>
    intro ps v s hv' hdb
    refine ⟨rfl, fun v' s' h => ?_⟩
    cases h
    exact ⟨.mk _ _ _ (by simp) hv'.under, by simp [Sparse.Vertex.data], hdb, fun _ => rfl⟩
  | cons p rest ih =>
    intro ps v s hok hdb
    have hc : OK ((Sparse.descGet v.desc p).getD (.mk (Sparse.childKey ps p) none [])) := by
      cases hg : Sparse.descGet v.desc p with
      | none => exact .mk _ _ _ (fun _ => rfl) (by simp)
      | some u => exact hok.under _ (Sparse.descGet_some_mem _ _ _ hg)
    obtain ⟨e1, p1⟩ := ih (Sparse.childKey ps p) _ s hc hdb
    have cb : ∀ c s1 raw, Sparse.putAt F (Verkle.updateInnerVertex E PP env) (some (.amount n)) rest (Sparse.childKey ps p)
          ((Sparse.descGet v.desc p).getD (.mk (Sparse.childKey ps p) none [])) s = some (c, s1) →
        Sparse.rawData (Sparse.descSet v.desc p c) F = some raw →
        Same E (updateInnerVertex S E PP env v.key v.data raw rest.isEmpty p s1)
          (Verkle.updateInnerVertex E PP env v.key v.data raw rest.isEmpty p s1) := by
      intro c s1 raw hcs hraw
      obtain ⟨-, -, hg1, hd1⟩ := p1 c s1 hcs
      have single : v.data = none → raw = (List.range F).map fun i => if i = p then c.data else none := by
        intro h0
        rw [hok.desc h0] at hraw
        exact rawData_single hraw
      have h1 : v.data = none → (raw.filterMap id).length ≤ 1 := by
        intro h0
        rw [single h0]
        exact filterMap_single F p c.data
      unfold updateInnerVertex Verkle.updateInnerVertex
      cases rest with
      | cons _ _ => exact updateInnerLayer_same hS hE PP hv _ _ _ _ hg1 h1
      | nil =>
        have hcd := hd1 rfl
        refine updateLeafLayer_same hS hE PP hv _ _ _ _ hg1 h1 ?_ ?_
        · intro h0 k hk
          rw [single h0] at hk
          obtain ⟨i, -, hi⟩ := List.mem_map.1 hk
          split_ifs at hi
          rw [hcd] at hi
          cases hi
          exact hn
        · intro k hk
          unfold Sparse.rawData at hraw
          split_ifs at hraw
          cases hraw
          rw [List.getElem?_map, Option.map_eq_some_iff] at hk
          obtain ⟨i, hi, hk⟩ := hk
          obtain ⟨hlt, hi⟩ := List.getElem?_eq_some_iff.1 hi
          rw [List.getElem_range] at hi
          subst hi
          rw [Sparse.descGet_descSet, if_pos rfl] at hk
          rw [Option.bind_some, hcd] at hk
          cases hk
          exact hn
    constructor
    · simp only [Sparse.putAt]
      rw [e1]
      cases hcs : Sparse.putAt F (Verkle.updateInnerVertex E PP env) (some (.amount n)) rest (Sparse.childKey ps p)
          ((Sparse.descGet v.desc p).getD (.mk (Sparse.childKey ps p) none [])) s with
      | none => rfl
      | some cs =>
        obtain ⟨c, s1⟩ := cs
        cases hraw : Sparse.rawData (Sparse.descSet v.desc p c) F with
        | none => simp [hraw]
        | some raw =>
          simp only [Option.bind_eq_bind, Option.bind_some, hraw]
          rw [(cb c s1 raw hcs hraw).1]
    · intro v' s' h
      simp only [Sparse.putAt] at h
      obtain ⟨⟨c, s1⟩, hcs, h⟩ := Option.bind_eq_some_iff.1 h
      obtain ⟨raw, hraw, h⟩ := Option.bind_eq_some_iff.1 h
      obtain ⟨⟨d, s2⟩, hd, h⟩ := Option.bind_eq_some_iff.1 h
      cases h
      obtain ⟨hg, hne⟩ := (cb c s1 raw hcs hraw).2 d _ hd
      refine ⟨.mk _ _ _ (fun h0 => absurd h0 hne) ?_, hne, hg, by simp⟩
      intro e he
      rcases descSet_mem' _ _ _ _ he with h0 | h0
      · rw [h0]
        exact (p1 c s1 hcs).1
      · exact hok.under e h0

/-- What stays true of a liability set. -/
structure Inv (E : Curve G1 G2 GT) (ls : LiabilitySet G1 G2 GT) : Prop where
  good : Good E ls.s.db
  ok : ∀ r, ls.tree.root = some r → OK r

theorem set_same (hS : S.Lawful) {E : Curve G1 G2 GT} (hE : E.Lawful) {env : Env} (hv : env.Lawful)
    {ls : LiabilitySet G1 G2 GT} (hi : Inv E ls) (id : Str) {n : ℤ} (hn : n < order) :
    set S E env ls id n = ls.set E env id n ∧ ∀ ls', ls.set E env id n = some ls' → Inv E ls' := by
  unfold set LiabilitySet.set
  split_ifs with h0
  · exact ⟨rfl, fun _ h => by cases h⟩
  · unfold put Verkle.Tree.put Sparse.Tree.put Verkle.Tree.sparse
    cases hp : ls.tree.id2Path id with
    | none => exact ⟨by simp [hp], fun _ h => by simp [hp] at h⟩
    | some path =>
      have hr : OK (ls.tree.root.getD (.mk [] none [])) := by
        cases hg : ls.tree.root with
        | none => exact .mk _ _ _ (fun _ => rfl) (by simp)
        | some r => exact hi.ok r hg
      obtain ⟨e, p⟩ := putAt_same hS hE ls.tree.PP hv ls.tree.fanOut (n := n) ⟨by omega, hn⟩ path [] _ ls.s hr hi.good
      constructor
      · simp only [hp, Option.bind_eq_bind, Option.bind_some, e]
        cases Sparse.putAt ls.tree.fanOut (Verkle.updateInnerVertex E ls.tree.PP env) (some (Data.amount n)) path []
          (ls.tree.root.getD (Sparse.Vertex.mk [] none [])) ls.s <;> rfl
      · intro ls' h
        simp only [hp, Option.bind_eq_bind, Option.bind_some] at h
        obtain ⟨⟨t', s'⟩, h1, h⟩ := Option.bind_eq_some_iff.1 h
        obtain ⟨⟨t2, s2⟩, h2, h1⟩ := Option.bind_eq_some_iff.1 h1
        obtain ⟨⟨r3, s3⟩, h3, h2⟩ := Option.bind_eq_some_iff.1 h2
        cases h2
        cases h1
        cases h
        obtain ⟨ok, -, hg, -⟩ := p _ _ h3
        exact ⟨hg, fun r hr => by cases hr; exact ok⟩

theorem sets_same (hS : S.Lawful) {E : Curve G1 G2 GT} (hE : E.Lawful) {env : Env} (hv : env.Lawful) :
    ∀ (hist : List (Str × ℤ)) {ls : LiabilitySet G1 G2 GT}, Inv E ls → (∀ e ∈ hist, e.2 < order) →
    sets S E env ls hist = ls.sets E env hist ∧ ∀ ls', ls.sets E env hist = some ls' → Inv E ls'
  | [], ls, hi, _ => ⟨rfl, fun ls' h => by cases h; exact hi⟩
  | e :: t, ls, hi, hb => by
    obtain ⟨e1, p1⟩ := set_same hS hE hv hi e.1 (hb e (by simp))
    unfold sets LiabilitySet.sets
    rw [List.foldlM_cons, List.foldlM_cons, e1]
    cases hs : ls.set E env e.1 e.2 with
    | none => exact ⟨rfl, fun _ h => by cases h⟩
    | some ls1 => exact sets_same hS hE hv t (p1 ls1 hs) fun x hx => hb x (by simp [hx])

theorem inv_new (E : Curve G1 G2 GT) (α : Zr) (pp : PublicParams G1 G2 GT) {db : Db} (hdb : Good E db)
    (id2Path : Str → Option (List ℕ)) : Inv E (newLiabilitySet E α pp db id2Path) :=
  ⟨hdb, fun r h => by cases h⟩

end PoL.Raw
