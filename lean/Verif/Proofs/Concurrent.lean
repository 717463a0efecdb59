import Verif.Model.Concurrent
import Verif.Proofs.Crash
import Verif.Proofs.SameRoot
import Verif.Proofs.Returns

/-! Reading while a write is running. -/

set_option linter.unusedSectionVars false

namespace PoL.Pol
open Spec BP PP Verkle

variable {G1 G2 GT : Type} [AddCommGroup G1] [Module Zr G1] [AddCommGroup G2] [Module Zr G2]
  [AddCommGroup GT] [Module Zr GT] [DecidableEq G1] [DecidableEq GT]

/-- The vertices in memory on a path that was written, and the keys they hold. -/
theorem sparse_path {E : Curve G1 G2 GT} (hE : E.Lawful) {env : Env} (henv : env.Lawful) {α : Zr} {F : ℕ}
    {t t' : Tree G1 G2 GT} (ht : NewTree E α F t) {L : ℕ} (hL : 1 ≤ L) (hist : List (Str × ℤ)) {s s' : State}
    (hids : ValidIds t.id2Path F L hist) (h : t.puts E env hist s = some (t', s')) (id : Str) (p : List ℕ)
    (hp : t.id2Path id = some p) (hpL : p.length = L) (hw : p ∈ (byPath t.id2Path hist).map Prod.fst) :
    ∃ us : ℕ → Sparse.Vertex Data, (∀ i < L, (us i).data = some (.key (keyOf (p.take i)))) ∧
      (t'.sparse E env).get id
        = some (some (some (.amount (latest (byPath t.id2Path hist) p)), (List.range L).map us)) := by
  obtain ⟨t1, s1, h1, h1t, -, hgood, -⟩ := puts_good hE henv α F ht.bound.le t ht.pp ht.fanOut ht.root L hL hist s hids
  rw [h, Option.some.injEq, Prod.mk.injEq] at h1
  obtain ⟨rfl, rfl⟩ := h1
  set hh := byPath t.id2Path hist with hhh
  have htp : ∀ i, touched hh (p.take i) := by
    intro i
    obtain ⟨e, he, rfl⟩ := List.mem_map.1 hw
    exact ⟨e, he, List.take_prefix i e.1⟩
  have hhe : hist ≠ [] := by
    rintro rfl
    simp [hhh, byPath] at hw
  obtain ⟨v, hv, hg⟩ := hgood hhe
  have hfind : ∀ i, ∃ u, Sparse.find (p.take i) v = some u := by
    intro i
    obtain ⟨v', u, hv', hu⟩ := find_touched ht.root hids h _ (htp i)
    rw [hv, Option.some.injEq] at hv'
    subst hv'
    exact ⟨u, hu⟩
  obtain ⟨uL, huL⟩ := hfind L
  rw [← hpL, List.take_length] at huL
  obtain ⟨us, hget, husl⟩ := Sparse.getAt_eq p v uL huL
  have husi := (Sparse.getAt_some_iff p v _ us hget).2.2
  have hlast := leaf_data ht.root hids h p hpL
  rw [hv, Option.bind_some, huL, Option.map_some] at hlast
  have hsome : (lastPut hh p).isSome := (lastPut_isSome hh p).2 hw
  obtain ⟨n, hn⟩ := Option.isSome_iff_exists.1 hsome
  rw [hn, Option.map_some, Option.some.injEq] at hlast
  have hlat : latest hh p = n := by unfold latest; rw [hn]; rfl
  have hstored : ∀ i < L, ∃ u, us[i]? = some u ∧ u.data = some (.key (keyOf (p.take i))) := by
    intro i hi
    obtain ⟨u, hu⟩ := hfind i
    have hgu := hg.find (p.take i) (by rw [List.length_take]; omega) u hu
    have hlen : L - (p.take i).length = (L - i - 1) + 1 := by rw [List.length_take]; omega
    rw [hlen, List.nil_append] at hgu
    exact ⟨u, by rw [husi i (by omega)]; exact hu, hgu.2.1⟩
  have : Nonempty (Sparse.Vertex Data) := ⟨v⟩
  choose! fu hu1 hu2 using hstored
  refine ⟨fu, hu2, ?_⟩
  have husm : us = (List.range L).map fu := by
    apply List.ext_getElem?
    intro i
    by_cases hi : i < L
    · rw [hu1 i hi]; simp [hi]
    · rw [List.getElem?_eq_none (by omega), List.getElem?_eq_none (by simp; omega)]
  unfold Sparse.Tree.get
  have : (t'.sparse E env).id2Path id = some p := by rw [h1t]; exact hp
  refine obind_step this ?_
  have hr : (t'.sparse E env).root = some v := hv
  rw [hr]
  dsimp only
  rw [hget, hlast, hlat, husm]
  rfl

theorem get_of_path {E : Curve G1 G2 GT} {env : Env} {t : Tree G1 G2 GT} {id : Str} {n : ℤ} {L : ℕ} {p : List ℕ}
    {us : ℕ → Sparse.Vertex Data} (hus : ∀ i < L, (us i).data = some (.key (keyOf (p.take i))))
    (hs : (t.sparse E env).get id = some (some (some (.amount n), (List.range L).map us))) (db : Db)
    (fx : ℕ → Verkle.Vertex G1) (hx : ∀ i < L, Verkle.Vertex.fromBytes E (db (keyOf (p.take i))) = some (fx i)) :
    t.get E env id db = some (some (n, (List.range L).map fx)) := by
  unfold Tree.get
  refine obind_step hs ?_
  dsimp only
  have : ((List.range L).map us).mapM (fun u => do
      let key ← (← u.data).str
      Verkle.Vertex.fromBytes E (db key)) = some ((List.range L).map fx) := by
    rw [List.mapM_map]
    apply mapM_some
    intro i hi
    rw [List.mem_range] at hi
    exact obind_step (hus i hi) (obind_step rfl (hx i hi))
  exact obind_step this rfl

theorem zipIdx_map_range {A : Type} (L : ℕ) (f : ℕ → A) :
    ((List.range L).map f).zipIdx = (List.range L).map fun i => (f i, i) := by
  apply List.ext_getElem?
  intro i
  rw [List.getElem?_zipIdx]
  by_cases hi : i < L
  · simp [hi]
  · rw [List.getElem?_eq_none (by simp; omega), List.getElem?_eq_none (by simp; omega)]; rfl

theorem getDuring_of_path {E : Curve G1 G2 GT} {env : Env} {t : Tree G1 G2 GT} {id : Str} {n : ℤ} {L : ℕ} {p : List ℕ}
    {us : ℕ → Sparse.Vertex Data} (hus : ∀ i < L, (us i).data = some (.key (keyOf (p.take i))))
    (hs : (t.sparse E env).get id = some (some (some (.amount n), (List.range L).map us))) (dbs : ℕ → Db)
    (fx : ℕ → Verkle.Vertex G1) (hx : ∀ i < L, Verkle.Vertex.fromBytes E (dbs i (keyOf (p.take i))) = some (fx i)) :
    t.getDuring E env id dbs = some (some (n, (List.range L).map fx)) := by
  unfold Tree.getDuring
  refine obind_step hs ?_
  dsimp only
  rw [zipIdx_map_range]
  have : ((List.range L).map fun i => (us i, i)).mapM (fun u => do
      let key ← (← u.1.data).str
      Verkle.Vertex.fromBytes E (dbs u.2 key)) = some ((List.range L).map fx) := by
    rw [List.mapM_map]
    apply mapM_some
    intro i hi
    rw [List.mem_range] at hi
    exact obind_step (hus i hi) (obind_step rfl (hx i hi))
  exact obind_step this rfl

/-- Given the vertices, `ProveLiability` does not look at the database. -/
theorem during_of_get {E : Curve G1 G2 GT} {env : Env} (ls : LiabilitySet G1 G2 GT) (r : Option (Sparse.Vertex Data)) (s : State)
    (rnd : ProveRand) (id : Str) (dbs : ℕ → Db) {n m : ℤ} {vs : List (Verkle.Vertex G1)}
    (h1 : ls.tree.getDuring E env id dbs = some (some (n, vs)))
    (h2 : ({ ls.tree with root := r } : Tree G1 G2 GT).get E env id s.db = some (some (m, vs))) :
    ls.proveLiabilityDuring E env rnd id dbs
      = ({ ls with tree := { ls.tree with root := r }, s := s } : LiabilitySet G1 G2 GT).proveLiability E env rnd id := by
  unfold LiabilitySet.proveLiabilityDuring LiabilitySet.proveLiability
  dsimp only
  rw [h1, h2]
  rfl

/-- If a proof is accepted, every vertex that was read has the digest its parent has for it. -/
theorem accepted_digests {E : Curve G1 G2 GT} {env : Env} {α : Zr} {F L : ℕ}
    {pp : PublicParams G1 G2 GT} (ls : LiabilitySet G1 G2 GT)
    (hPP : ls.tree.PP = newPublicParams E α (F + 2)) (hfan : ls.tree.fanOut = F) {id : Str} {path : List ℕ}
    (hp : ls.tree.id2Path id = some path) (hpL : path.length = L) (hlt : ∀ x ∈ path, x < F) (fx : ℕ → Verkle.Vertex G1)
    {n : ℤ} (hget : ls.tree.get E env id ls.s.db = some (some (n, (List.range L).map fx)))
    (hW : ∀ i, i + 1 < L → (fx i).W.isSome) (hWl : (fx (L - 1)).W = none) {rnd : ProveRand} {m : ℤ} {lp : LiabilityProof G1}
    (hpr : ls.proveLiability E env rnd id = some (some (m, lp))) {V W : G1}
    (hv : lp.verify E pp id V W ls.tree.id2Path = some true) (i : ℕ) (hi : i + 1 < L) :
    IsHashOf E (hashedAs E (fx (i + 1))) (((fx i).digests (UInt16.ofNat (path.getD i 0))).getD 0) := by
  obtain ⟨path', hp', hacc⟩ := (verify_iff E lp pp id V W ls.tree.id2Path).1 hv
  rw [hp, Option.some.injEq] at hp'
  subst hp'
  unfold LiabilitySet.proveLiability at hpr
  rw [hp, Option.bind_eq_bind, Option.bind_some, hget] at hpr
  obtain ⟨r, hg, hpr⟩ := obind_elim hpr
  obtain rfl := Option.some.inj hg
  dsimp only at hpr
  split_ifs at hpr with hlen
  obtain ⟨layers, hl, hpr⟩ := obind_elim hpr
  obtain ⟨last, hlast, hpr⟩ := obind_elim hpr
  obtain ⟨idx, hidx, hpr⟩ := obind_elim hpr
  obtain ⟨⟨l, π⟩, ho, hpr⟩ := obind_elim hpr
  obtain ⟨m', hm, hpr⟩ := obind_elim hpr
  obtain ⟨ts, -, hpr⟩ := obind_elim hpr
  obtain ⟨a1, -, hpr⟩ := obind_elim hpr
  obtain ⟨a2, -, hpr⟩ := obind_elim hpr
  obtain ⟨a3, -, hpr⟩ := obind_elim hpr
  obtain ⟨a4, -, hpr⟩ := obind_elim hpr
  obtain ⟨a5, -, hpr⟩ := obind_elim hpr
  obtain ⟨a6, -, hpr⟩ := obind_elim hpr
  obtain ⟨a7, -, hpr⟩ := obind_elim hpr
  rw [Option.pure_def, Option.some.injEq, Option.some.injEq, Prod.mk.injEq] at hpr
  have hll : layers.length = L := by rw [mapM_length _ _ _ hl]; simp [hpL]
  have hlay : ∀ j < L, ∃ y : Layer G1, layers[j]? = some y ∧ y.v = fx j ∧
      y.digest = ((fx j).digests (UInt16.ofNat (path.getD j 0))).getD 0 := by
    intro j hj
    have hy2 := mapM_getElem _ _ _ hl j j (List.getElem?_range (by omega))
    rw [List.getElem?_eq_getElem (by omega)] at hy2
    refine ⟨layers[j]'(by omega), List.getElem?_eq_getElem (by omega), ?_⟩
    unfold proveLayer at hy2
    obtain ⟨v, e1, hy2⟩ := obind_elim hy2
    obtain ⟨rp, -, hy2⟩ := obind_elim hy2
    obtain ⟨pi, e2, hy2⟩ := obind_elim hy2
    obtain ⟨o, e3, hy2⟩ := obind_elim hy2
    have hv' : fx j = v := by simpa [hj] using e1
    have hpi : path.getD j 0 = pi := by rw [List.getD_eq_getElem?_getD, e2]; rfl
    have hpil : pi < F := hlt _ (List.mem_of_getElem? e2)
    rw [← Option.some.inj hy2]
    refine ⟨hv'.symm, ?_⟩
    dsimp only
    rw [hPP, hfan, openAt_eq E α (F + 2) _ (by simp) (by omega) _ (by omega), Option.some.injEq] at e3
    rw [← e3, hpi, hv']
    simp [List.getD_eq_getElem?_getD, intToZr_zero, show pi < F + 2 by omega]
  have : Nonempty (Layer G1) := ⟨(hlay 0 (by omega)).choose⟩
  choose! lay hlay1 hlay2 hlay3 using hlay
  have hlm : layers = (List.range L).map lay := by
    apply List.ext_getElem?
    intro j
    by_cases hj : j < L
    · rw [hlay1 j hj]; simp [hj]
    · rw [List.getElem?_eq_none (by omega), List.getElem?_eq_none (by simp; omega)]
  subst hlm
  have hd : ∀ j < L, lp.digests[j]? = some (((fx j).digests (UInt16.ofNat (path.getD j 0))).getD 0) := by
    intro j hj
    rw [← hpr.2]
    simp [hj, hlay3 j hj]
  have hV : ∀ j < L, lp.V[j]? = some (fx j).V := by
    intro j hj
    rw [← hpr.2]
    simp [hj, hlay2 j hj]
  have hWs : lp.W = (List.range (L - 1)).map fun j => ((fx j).W).getD 0 := by
    rw [← hpr.2]
    dsimp only
    rw [show List.range L = List.range (L - 1) ++ [L - 1] by rw [← List.range_succ]; congr 1; omega, List.map_append,
      List.filterMap_append, List.filterMap_map]
    have e1 : List.filterMap ((fun y : Layer G1 => y.v.W) ∘ lay) (List.range (L - 1))
        = List.filterMap (fun j => some (((fx j).W).getD 0)) (List.range (L - 1)) := by
      apply List.filterMap_congr
      intro j hj
      rw [List.mem_range] at hj
      obtain ⟨w, hw⟩ := Option.isSome_iff_exists.1 (hW j (by omega))
      simp only [Function.comp, hlay2 j (by omega), hw, Option.getD_some]
    rw [e1, List.filterMap_eq_map']
    have : (lay (L - 1)).v.W = none := by rw [hlay2 _ (by omega), hWl]
    simp [this]
  unfold hashedAs
  by_cases hi2 : i + 2 < L
  · obtain ⟨C, D, d, c1, c2, c3, c4⟩ := hacc.inner_digests (i + 1) (by omega) (by omega)
    obtain ⟨w, hw⟩ := Option.isSome_iff_exists.1 (hW (i + 1) (by omega))
    rw [hV _ (by omega), Option.some.injEq] at c1
    rw [hWs] at c2
    have c2' : D = w := by
      simpa [show i + 1 < L - 1 by omega, hw] using c2.symm
    rw [Nat.add_sub_cancel, hd i (by omega), Option.some.injEq] at c3
    rw [hw, c1, c3, ← c2']
    exact c4
  · obtain ⟨C, d, c1, c2, c3⟩ := hacc.leaf_digest
    rw [hpL, hV _ (by omega), Option.some.injEq] at c1
    rw [hpL, hd _ (by omega), Option.some.injEq] at c2
    have e : i + 1 = L - 1 := by omega
    have e' : L - 2 = i := by omega
    rw [e, hWl, c1, List.append_nil]
    rw [e'] at c2
    rw [c2]
    exact c3

/-- The moment at which the reads could all have been made. -/
theorem moment {L : ℕ} (hL : 1 ≤ L) (τ : ℕ → ℕ) (hτ : Monotone τ) (hb : ∀ i, τ i ≤ L) :
    ∃ k ≤ L, τ 0 ≤ k ∧ k ≤ τ (L - 1) ∧ ∀ i < L, (L - τ i ≤ i ↔ L - k ≤ i) := by
  classical
  by_cases hex : ∃ i, i < L ∧ L - τ i ≤ i
  · obtain ⟨hc1, hc2⟩ := Nat.find_spec hex
    have hmin := fun j (hj : j < Nat.find hex) => Nat.find_min hex hj
    set c := Nat.find hex
    have h1 : τ c ≤ τ (L - 1) := hτ (by omega)
    have h0 := hb 0
    refine ⟨L - c, by omega, ?_, by omega, ?_⟩
    · by_cases hc : c = 0
      · omega
      · have := hmin (c - 1) (by omega)
        have h2 : τ 0 ≤ τ (c - 1) := hτ (by omega)
        omega
    · intro i hi
      constructor
      · intro h
        by_contra hlt
        exact hmin i (by omega) ⟨hi, h⟩
      · intro h
        have h2 : τ c ≤ τ i := hτ (by omega)
        omega
  · have h0 : τ (L - 1) = 0 := by
      by_contra hc
      exact hex ⟨L - 1, by omega, by omega⟩
    have h1 : τ 0 ≤ τ (L - 1) := hτ (by omega)
    refine ⟨0, by omega, by omega, by omega, ?_⟩
    intro i hi
    constructor
    · intro h; exact absurd ⟨i, hi, h⟩ hex
    · intro h; omega

/-- A write changes the database only on its path. -/
theorem put_off {E : Curve G1 G2 GT} {env : Env} {t t1 t2 : Tree G1 G2 GT} (hroot : t.root = none)
    {hist : List (Str × ℤ)} {id : Str} {n : ℤ} {s s1 s2 : State}
    (h1 : t.puts E env hist s = some (t1, s1)) (h2 : t1.put E env id n s1 = some (t2, s2)) (p : List ℕ)
    (hp : t.id2Path id = some p) (key : Str) (hk : ∀ j < p.length, key ≠ keyOf (p.take j)) : s2.db key = s1.db key := by
  have hh1 := h1
  rw [vputs_sparse] at hh1
  obtain ⟨⟨ts, s3⟩, h3, h4⟩ := Option.map_eq_some_iff.1 hh1
  simp only [Prod.mk.injEq] at h4
  obtain ⟨h4, rfl⟩ := h4
  have hkk := Sparse.keysOk_puts (t0 := t.sparse E env) hroot _ _ _ h3
  have hrt : t1.root = ts.root := by rw [← h4]
  have hid : t1.id2Path = t.id2Path := by rw [← h4]
  unfold Tree.put at h2
  obtain ⟨⟨t3, s4⟩, h5, h6⟩ := obind_elim h2
  simp only [Option.pure_def, Option.some.injEq, Prod.mk.injEq] at h6
  obtain ⟨-, rfl⟩ := h6
  obtain ⟨path, root', hp'', hput, -⟩ := Sparse.put_some h5
  have : path = p := by
    have : t1.id2Path id = some path := hp''
    rw [hid, hp] at this
    exact (Option.some.inj this).symm
  subst this
  have hput' : Sparse.putAt t1.fanOut (updateInnerVertex E t1.PP env) (some (.amount n)) path (keyOf [])
      (t1.root.getD (.mk [] none [])) s3 = some (root', s4) := hput
  obtain ⟨l', -, -, i3, -⟩ := putAt_snapshots [s3] (pre := []) (by rw [hrt]; exact hkk) hput'
  exact i3 key hk

/-- What a reader finds while a write is running: for every vertex on the path the old or the new one. -/
structure TwoReads (E : Curve G1 G2 GT) (env : Env) (α : Zr) (F L : ℕ) (ls ls1 ls2 : LiabilitySet G1 G2 GT)
    (hist hist' : List (Str × ℤ)) (l : List State) (p q : List ℕ) (id : Str) (old new : ℕ → Verkle.Vertex G1) : Prop where
  length : l.length = L + 1
  tree₁ : ls1 = { ls with tree := { ls.tree with root := ls1.tree.root }, s := ls1.s }
  tree₂ : ls2 = { ls1 with tree := { ls1.tree with root := ls2.tree.root }, s := ls2.s }
  reads : ∀ k ≤ L, ∀ i < L, Verkle.Vertex.fromBytes E ((l.getD k ls1.s).db (keyOf (q.take i)))
    = some (if L ≤ i + k ∧ q.take i = p.take i then new i else old i)
  get₁ : ls1.tree.get E env id ls1.s.db = some (some (latest (byPath ls.tree.id2Path hist) q, (List.range L).map old))
  get₂ : ls2.tree.get E env id ls2.s.db = some (some (latest (byPath ls.tree.id2Path hist') q, (List.range L).map new))
  same : ∀ i < L, q.take i ≠ p.take i → new i = old i
  getAt : ∀ (db : Db) (fx : ℕ → Verkle.Vertex G1),
    (∀ i < L, Verkle.Vertex.fromBytes E (db (keyOf (q.take i))) = some (fx i)) →
    ls1.tree.get E env id db = some (some (latest (byPath ls.tree.id2Path hist) q, (List.range L).map fx))
  getDuring : ∀ (dbs : ℕ → Db) (fx : ℕ → Verkle.Vertex G1),
    (∀ i < L, Verkle.Vertex.fromBytes E (dbs i (keyOf (q.take i))) = some (fx i)) →
    ls1.tree.getDuring E env id dbs = some (some (latest (byPath ls.tree.id2Path hist) q, (List.range L).map fx))
  onOld : ∀ i < L, OnPath E α F L (byPath ls.tree.id2Path hist) q ((List.range L).map old) i (old i)
  onNew : ∀ i < L, OnPath E α F L (byPath ls.tree.id2Path hist') q ((List.range L).map new) i (new i)
  stored₁ : ∀ i < L, Verkle.Vertex.fromBytes E (ls1.s.db (keyOf (q.take i))) = some (old i)
  stored₂ : ∀ i < L, Verkle.Vertex.fromBytes E (ls2.s.db (keyOf (q.take i))) = some (new i)

theorem twoReads {E : Curve G1 G2 GT} (hE : E.Lawful) {env : Env} (henv : env.Lawful) {α : Zr} {F L : ℕ}
    {ls ls1 ls2 : LiabilitySet G1 G2 GT} (h : NewSet E α F L ls) (hist : List (Str × ℤ)) (id : Str) (n : ℤ)
    (hids : ValidIds ls.tree.id2Path F L (hist ++ [(id, n)])) (h1 : ls.sets E env hist = some ls1)
    (h2 : ls.sets E env (hist ++ [(id, n)]) = some ls2) {l : List State}
    (hl : ls1.tree.crashStates E env id n ls1.s = some l) (p : List ℕ) (hp : ls.tree.id2Path id = some p) (id' : Str)
    (q : List ℕ) (hq : ls.tree.id2Path id' = some q) (hw : q ∈ (byPath ls.tree.id2Path hist).map Prod.fst) :
    ∃ old new, TwoReads E env α F L ls ls1 ls2 hist (hist ++ [(id, n)]) l p q id' old new := by
  have hL := h.pp.depth
  obtain ⟨-, t1, s1, hp1, rfl⟩ := (sets_iff E env hist ls ls1).1 h1
  obtain ⟨-, t2, s2, hp2, rfl⟩ := (sets_iff E env _ ls ls2).1 h2
  have hids1 : ValidIds ls.tree.id2Path F L hist := fun e he => hids e (by simp [he])
  have hpL : p.length = L := by
    obtain ⟨p', hp', hl', -⟩ := hids (id, n) (by simp)
    rw [hp, Option.some.injEq] at hp'
    rw [hp']; exact hl'
  obtain ⟨hqL, -⟩ := byPath_length hids1 q (List.mem_toFinset.2 hw)
  have hw2 : q ∈ (byPath ls.tree.id2Path (hist ++ [(id, n)])).map Prod.fst := by
    simp only [byPath, List.map_append, List.mem_append] at hw ⊢
    exact Or.inl hw
  have hput := hp2
  rw [vputs_concat, hp1, Option.bind_some] at hput
  obtain ⟨l', a1, a2, a3⟩ := crashStates_eq h.tree.root hp1 hput p hp
  obtain rfl : l' = l := Option.some.inj (a1.symm.trans hl)
  rw [hpL] at a2 a3
  have : Nonempty (Verkle.Vertex G1) := ⟨⟨0, fun _ => none, fun _ => none, 0, 0, none⟩⟩
  have hmap : ∀ (vs : List (Verkle.Vertex G1)) (fx : ℕ → Verkle.Vertex G1), vs.length = L →
      (∀ i < L, vs[i]? = some (fx i)) → vs = (List.range L).map fx := by
    intro vs fx hvl hx
    apply List.ext_getElem?
    intro i
    by_cases hi : i < L
    · rw [hx i hi]; simp [hi]
    · rw [List.getElem?_eq_none (by omega), List.getElem?_eq_none (by simp; omega)]
  obtain ⟨vs1, g1, gl1, o1⟩ := get_onPath hE henv h.tree (by omega) hist hids1 hp1 id' q hq hqL hw
  choose! old ho1 ho2 ho3 using o1
  obtain ⟨vs2, g2, gl2, o2⟩ := get_onPath hE henv h.tree (by omega) _ hids hp2 id' q hq hqL hw2
  choose! new hn1 hn2 hn3 using o2
  obtain rfl := hmap vs1 old gl1 ho1
  obtain rfl := hmap vs2 new gl2 hn1
  obtain ⟨us, hus, hs⟩ := sparse_path hE henv h.tree (by omega) hist hids1 hp1 id' q hq hqL hw
  have hkey : ∀ i < L, ∀ k ≤ L, (∃ j, L - k ≤ j ∧ j < L ∧ keyOf (q.take i) = keyOf (p.take j)) ↔
      (L ≤ i + k ∧ q.take i = p.take i) := by
    intro i hi k hk
    constructor
    · rintro ⟨j, hj1, hj2, hj3⟩
      have hj4 := keyOf_injective hj3
      have := congrArg List.length hj4
      rw [List.length_take, List.length_take, hqL, hpL] at this
      obtain rfl : i = j := by omega
      exact ⟨by omega, hj4⟩
    · rintro ⟨b1, b2⟩
      exact ⟨i, by omega, hi, by rw [b2]⟩
  have hst : ∀ k ≤ L, l'[k]? = some (l'.getD k s1) := by
    intro k hk
    rw [List.getD_eq_getElem?_getD, List.getElem?_eq_getElem (by omega)]
    rfl
  have hreads : ∀ k ≤ L, ∀ i < L, (l'.getD k s1).db (keyOf (q.take i))
      = if L ≤ i + k ∧ q.take i = p.take i then s2.db (keyOf (q.take i)) else s1.db (keyOf (q.take i)) := by
    intro k hk i hi
    obtain ⟨b1, b2⟩ := a3 k _ (hst k hk) (keyOf (q.take i))
    split_ifs with hc
    · exact b1 ((hkey i hi k hk).2 hc)
    · exact b2 (fun hc' => hc ((hkey i hi k hk).1 hc'))
  refine ⟨old, new, a2, by rw [puts_fields' hp1], ?_, ?_, g1, g2, ?_, fun db fx hx => get_of_path hus hs db fx hx,
    fun dbs fx hx => getDuring_of_path hus hs dbs fx hx, ho3, hn3, ho2, hn2⟩
  · have e1 := puts_fields' hp1
    have e2 := puts_fields' hp2
    dsimp only
    rw [e1]
    dsimp only
    rw [← e2]
  · intro k hk i hi
    dsimp only
    rw [hreads k hk i hi]
    split_ifs
    · exact hn2 i hi
    · exact ho2 i hi
  · intro i hi hne
    have b1 := put_off h.tree.root hp1 hput p hp (keyOf (q.take i)) (by
      intro j hj hc
      have hj4 := keyOf_injective hc
      have := congrArg List.length hj4
      rw [List.length_take, List.length_take, hqL] at this
      obtain rfl : i = j := by omega
      exact hne hj4)
    have := hn2 i hi
    rw [b1, ho2 i hi, Option.some.injEq] at this
    exact this.symm

end PoL.Pol
