import Verif.Proofs.PolSet
import Verif.Proofs.PolRoot
import Verif.Model.Shared
import Verif.Spec.Shared

/-! Two liability sets over one database: what one of them may count on, whatever the other one writes. -/

set_option linter.unusedSectionVars false

namespace PoL.Verkle
open PoL.PP Sparse Spec

variable {G1 G2 GT : Type} [AddCommGroup G1] [Module Zr G1] [AddCommGroup G2] [Module Zr G2]
  [AddCommGroup GT] [Module Zr GT] [DecidableEq G1] [DecidableEq GT]

/-- The stored vertex at a path has the form of its layer. -/
def Formed (E : Curve G1 G2 GT) (α : Zr) (F h : ℕ) (pre : List ℕ) (db : Db) : Prop :=
  (h = 0 → ∃ bf vals V, load E db (keyOf pre) = some (leafVertex F bf vals V)) ∧
  (h ≠ 0 → ∃ bf vals digs, (∀ i, (vals i).isSome = (digs i).isSome) ∧
    load E db (keyOf pre) = some (innerVertex E α F bf vals digs))

/-- Nothing of the right form is lost, in a tree of depth `L`. -/
def Keeps (E : Curve G1 G2 GT) (α : Zr) (F L : ℕ) (db db' : Db) : Prop :=
  ∀ h pre, pre.length + h + 1 = L → Formed E α F h pre db → Formed E α F h pre db'

/-- The tree in memory points to stored vertices of the right form. -/
def Backed (E : Curve G1 G2 GT) (α : Zr) (F : ℕ) : ℕ → List ℕ → Sparse.Vertex Data → Db → Prop
  | 0, _, v, _ => ∃ n, v.data = some (.amount n)
  | h + 1, pre, v, db =>
    v.key = keyOf pre ∧ v.data = some (.key (keyOf pre)) ∧
    (∀ i u, descGet v.desc i = some u → i < F ∧ Backed E α F h (pre ++ [i]) u db) ∧
    Formed E α F h pre db

theorem Keeps.refl (E : Curve G1 G2 GT) (α : Zr) (F L : ℕ) (db : Db) : Keeps E α F L db db := fun _ _ _ h => h

theorem Keeps.trans {E : Curve G1 G2 GT} {α : Zr} {F L : ℕ} {db db' db'' : Db} (h1 : Keeps E α F L db db')
    (h2 : Keeps E α F L db' db'') : Keeps E α F L db db'' := fun h pre hl hf => h2 h pre hl (h1 h pre hl hf)

theorem Backed.mono {E : Curve G1 G2 GT} {α : Zr} {F L : ℕ} {db db' : Db} (hk : Keeps E α F L db db') {h : ℕ}
    {pre : List ℕ} {v : Sparse.Vertex Data} (hl : pre.length + h = L) (hb : Backed E α F h pre v db) :
    Backed E α F h pre v db' := by
  induction h generalizing pre v with
  | zero => exact hb
  | succ h ih =>
    obtain ⟨h1, h2, h3, h4⟩ := hb
    exact ⟨h1, h2, fun i u hu => ⟨(h3 i u hu).1, ih (by simp; omega) (h3 i u hu).2⟩, hk h pre (by omega) h4⟩

theorem Formed.stored {E : Curve G1 G2 GT} {α : Zr} {F h : ℕ} {pre : List ℕ} {db : Db} (hf : Formed E α F h pre db) :
    ∃ x, load E db (keyOf pre) = some x := by
  by_cases hh : h = 0
  · obtain ⟨_, _, _, h⟩ := hf.1 hh; exact ⟨_, h⟩
  · obtain ⟨_, _, _, _, h⟩ := hf.2 hh; exact ⟨_, h⟩

theorem Backed.find {E : Curve G1 G2 GT} {α : Zr} {F : ℕ} {h : ℕ} {pre : List ℕ} {v : Sparse.Vertex Data} {db : Db}
    (hg : Backed E α F h pre v db) (q : List ℕ) (hq : q.length ≤ h) (u : Sparse.Vertex Data)
    (hu : Sparse.find q v = some u) : Backed E α F (h - q.length) (pre ++ q) u db := by
  induction q generalizing h pre v with
  | nil =>
    rw [find_nil, Option.some.injEq] at hu
    subst hu
    simpa using hg
  | cons p t ih =>
    cases h with
    | zero => simp at hq
    | succ h =>
      rw [find_cons] at hu
      obtain ⟨w, hw, hu⟩ := Option.bind_eq_some_iff.1 hu
      have := ih (hg.2.2.1 p w hw).2 (by simpa using hq) hu
      simpa using this

/-- Writing a vertex of the right form loses nothing. -/
theorem keeps_store {E : Curve G1 G2 GT} {env : Env} {α : Zr} {F L h : ℕ}
    {pre : List ℕ} (hl : pre.length + h + 1 = L) (x : Vertex G1) (s : State)
    (hx : Formed E α F h pre (store E env (keyOf pre) x s).db) :
    Keeps E α F L s.db (store E env (keyOf pre) x s).db := by
  intro h' pre' hl' hf
  by_cases hp : pre' = pre
  · subst hp
    have : h' = h := by omega
    subst this
    exact hx
  · have : load E (store E env (keyOf pre) x s).db (keyOf pre') = load E s.db (keyOf pre') :=
      load_congr E (store_db _ _ _ _ _ _ fun hc => hp (keyOf_injective hc))
    unfold Formed
    rw [this]
    exact hf

/-- A `Put` below a fresh vertex or one that is backed returns, leaves it backed, and loses nothing. -/
theorem putAt_backed {E : Curve G1 G2 GT} (hE : E.Lawful) {env : Env} (henv : env.Lawful) (α : Zr) (F L : ℕ)
    (hF : F + 2 ≤ 65536) (n : ℤ) (path : List ℕ) (hpath : ∀ x ∈ path, x < F)
    (pre : List ℕ) (hL : pre.length + path.length = L) (v : Sparse.Vertex Data) (s : State)
    (hv : Fresh pre v ∨ Backed E α F path.length pre v s.db) :
    ∃ v' s', putAt F (updateInnerVertex E (newPublicParams E α (F + 2)) env) (some (.amount n)) path
        (keyOf pre) v s = some (v', s') ∧
      Backed E α F path.length pre v' s'.db ∧ Keeps E α F L s.db s'.db := by
  induction path generalizing pre v s with
  | nil => exact ⟨_, _, rfl, ⟨n, rfl⟩, Keeps.refl E α F L s.db⟩
  | cons p rest ih =>
    have hp : p < F := hpath p (by simp)
    rw [List.length_cons] at hL
    have hkey : v.key = keyOf pre := by
      rcases hv with hv | hv
      · rw [hv]; rfl
      · exact hv.1
    have hch : ∀ i u, descGet v.desc i = some u → i < F ∧ Backed E α F rest.length (pre ++ [i]) u s.db := by
      rcases hv with hv | hv
      · intro i u hu; rw [hv] at hu; simp [Sparse.Vertex.desc, descGet] at hu
      · exact hv.2.2.1
    obtain ⟨child', s1, hrec, hback, hkeep⟩ := ih (fun x hx => hpath x (by simp [hx])) (pre ++ [p]) (by simp; omega)
      ((descGet v.desc p).getD (.mk (childKey (keyOf pre) p) none [])) s (by
        cases hd : descGet v.desc p with
        | none => left; rw [Option.getD_none, childKey_keyOf]; rfl
        | some u => right; rw [Option.getD_some]; exact (hch p u hd).2)
    rw [← childKey_keyOf] at hrec
    set desc' := descSet v.desc p child' with hdesc'
    have hch' : ∀ i u, descGet desc' i = some u → i < F ∧ Backed E α F rest.length (pre ++ [i]) u s1.db := by
      intro i u hu
      rw [hdesc', descGet_descSet] at hu
      by_cases hi : p = i
      · rw [if_pos hi, Option.some.injEq] at hu
        subst hi; subst hu
        exact ⟨hp, hback⟩
      · rw [if_neg hi] at hu
        exact ⟨(hch i u hu).1, (hch i u hu).2.mono hkeep (by simp; omega)⟩
    have hraw := rawData_eq desc' F (fun i u hu => (hch' i u hu).1)
    have fin : ∀ x : Vertex G1,
        updateInnerVertex E (newPublicParams E α (F + 2)) env (keyOf pre) v.data
          ((List.range F).map fun i => (descGet desc' i).bind Sparse.Vertex.data) rest.isEmpty p s1
          = some (some (.key (keyOf pre)), store E env (keyOf pre) x s1) →
        (rest = [] → ∃ bf vals V, x = leafVertex F bf vals V) →
        (rest ≠ [] → ∃ bf vals digs, (∀ i, (vals i).isSome = (digs i).isSome) ∧ x = innerVertex E α F bf vals digs) →
        ∃ v' s', putAt F (updateInnerVertex E (newPublicParams E α (F + 2)) env) (some (.amount n)) (p :: rest)
            (keyOf pre) v s = some (v', s') ∧
          Backed E α F (p :: rest).length pre v' s'.db ∧ Keeps E α F L s.db s'.db := by
      intro x hupd hx0 hx1
      have hform : Formed E α F rest.length pre (store E env (keyOf pre) x s1).db := by
        constructor
        · intro h0
          obtain ⟨bf, vals, V, rfl⟩ := hx0 (List.length_eq_zero_iff.1 h0)
          exact ⟨bf, vals, V, load_store_self hE henv _ _ _⟩
        · intro h0
          obtain ⟨bf, vals, digs, hvd, rfl⟩ := hx1 (fun hc => h0 (by rw [hc]; rfl))
          exact ⟨bf, vals, digs, hvd, load_store_self hE henv _ _ _⟩
      have hst := keeps_store (L := L) (by omega) x s1 hform
      refine ⟨.mk v.key (some (.key (keyOf pre))) desc', store E env (keyOf pre) x s1, ?_, ?_, hkeep.trans hst⟩
      · rw [putAt]
        refine obind_step hrec ?_
        dsimp only
        refine obind_step hraw ?_
        rw [hkey]
        refine obind_step hupd ?_
        rfl
      · exact ⟨hkey, rfl, fun i u hu => ⟨(hch' i u hu).1, (hch' i u hu).2.mono hst (by simp; omega)⟩, hform⟩
    by_cases hrest : rest = []
    · subst hrest
      have ham : ∀ j, j < F → (descGet desc' j).bind Sparse.Vertex.data
          = ((descGet desc' j).map (total F 0)).map Data.amount := by
        intro j _
        cases hd : descGet desc' j with
        | none => rfl
        | some u =>
          obtain ⟨b, hb⟩ := (hch' j u hd).2
          simp [total, hb]
      rcases hv with hv | hv
      · have hd0 : v.data = none := by rw [hv]; rfl
        have := updateLeaf_new E α F (by omega) env (keyOf pre) (fun i => (descGet desc' i).bind Sparse.Vertex.data)
          (fun i => (descGet desc' i).map (total F 0)) p s1 ham
        exact fin _ (by rw [hd0]; exact this) (fun _ => ⟨_, _, _, rfl⟩) (fun h => absurd rfl h)
      · obtain ⟨-, hd0, -, h4⟩ := hv
        obtain ⟨bf, vals, V, hl⟩ := (hkeep 0 pre (by simpa using hL) h4).1 rfl
        obtain ⟨b, hb⟩ := (hch' p child' (by rw [hdesc', descGet_descSet, if_pos rfl])).2
        have hfp : (fun i => (descGet desc' i).bind Sparse.Vertex.data) p = some (.amount b) := by
          simp only [hdesc', descGet_descSet, if_true, Option.bind_some, hb]
        have := updateLeaf_old E α F hF env (keyOf pre) (.key (keyOf pre))
          (fun i => (descGet desc' i).bind Sparse.Vertex.data) p hp s1 bf _ V hl b hfp
        dsimp only at this
        exact fin _ (by rw [hd0]; exact this) (fun _ => ⟨_, _, _, rfl⟩) (fun h => absurd rfl h)
    · have hre : rest.isEmpty = false := by
        cases rest with
        | nil => exact absurd rfl hrest
        | cons => rfl
      obtain ⟨h, hh⟩ : ∃ h, rest.length = h + 1 := ⟨rest.length - 1, by
        have := List.length_pos_iff.2 hrest; omega⟩
      have hstored : ∀ i u, descGet desc' i = some u → u.data = some (.key (keyOf (pre ++ [i]))) ∧
          ∃ x, load E s1.db (keyOf (pre ++ [i])) = some x := by
        intro i u hu
        have hg := (hch' i u hu).2
        rw [hh] at hg
        exact ⟨hg.2.1, hg.2.2.2.stored⟩
      rcases hv with hv | hv
      · have hd0 : v.data = none := by rw [hv]; rfl
        have := updateInner_new hE α F (by omega) env (keyOf pre)
          (fun i => (descGet desc' i).bind Sparse.Vertex.data)
          (fun i => (descGet desc' i).bind fun _ => load E s1.db (keyOf (pre ++ [i]))) p s1 (by
            intro j _
            cases hd : descGet desc' j with
            | none => left; exact ⟨rfl, rfl⟩
            | some u =>
              right
              obtain ⟨h1, x, h2⟩ := hstored j u hd
              exact ⟨_, x, h1, h2, h2⟩)
        refine fin _ (by rw [hre, hd0]; exact this) (fun h => absurd h hrest) fun _ => ⟨_, _, _, fun i => ?_, rfl⟩
        rw [Option.isSome_map, Option.isSome_map]
      · obtain ⟨-, hd0, -, h4⟩ := hv
        obtain ⟨bf, vals, digs, hvd, hl⟩ := (hkeep rest.length pre (by omega) h4).2 (by simpa using hrest)
        obtain ⟨h1, y, h2⟩ := hstored p child' (by rw [hdesc', descGet_descSet, if_pos rfl])
        have := updateInner_old hE α F hF env (keyOf pre) (.key (keyOf pre))
          (fun i => (descGet desc' i).bind Sparse.Vertex.data) p hp s1 bf vals digs hvd hl y (by
            have : (descGet desc' p).bind Sparse.Vertex.data = some (.key (keyOf (pre ++ [p]))) := by
              rw [hdesc', descGet_descSet, if_pos rfl, Option.bind_some, h1]
            simp only [this]
            exact h2)
        refine fin _ (by rw [hre, hd0]; exact this) (fun h => absurd h hrest) fun _ => ⟨_, _, _, fun i => ?_, rfl⟩
        by_cases hi : i = p
        · subst hi; simp
        · rw [Function.update_of_ne hi, Function.update_of_ne hi]; exact hvd i

/-- What the callback puts into the tree does not depend on the database. -/
theorem update_data {E : Curve G1 G2 GT} {PP : PP G1 G2 GT} {env : Env} {key : Str} {node : Option Data}
    {ds : List (Option Data)} {leaf : Bool} {i : ℕ} {s s' : State} {d : Option Data}
    (h : updateInnerVertex E PP env key node ds leaf i s = some (d, s')) : d = some (.key key) := by
  unfold updateInnerVertex at h
  cases leaf with
  | true =>
    rw [if_pos rfl] at h
    unfold updateLayerAboveLeaves at h
    cases node with
    | none =>
      dsimp only at h
      obtain ⟨⟨sum, values, m⟩, -, h⟩ := obind_elim h
      dsimp only at h
      obtain ⟨_, -, h⟩ := obind_elim h
      exact (Prod.mk.inj (Option.some.inj h)).1.symm
    | some _ =>
      dsimp only at h
      obtain ⟨_, -, h⟩ := obind_elim h
      obtain ⟨_, -, h⟩ := obind_elim h
      obtain ⟨_, -, h⟩ := obind_elim h
      obtain ⟨_, -, h⟩ := obind_elim h
      obtain ⟨_, -, h⟩ := obind_elim h
      obtain ⟨_, -, h⟩ := obind_elim h
      exact (Prod.mk.inj (Option.some.inj h)).1.symm
  | false =>
    rw [if_neg (by simp)] at h
    unfold updateInnerLayer at h
    cases node with
    | none =>
      dsimp only at h
      obtain ⟨_, -, h⟩ := obind_elim h
      obtain ⟨_, -, h⟩ := obind_elim h
      obtain ⟨_, -, h⟩ := obind_elim h
      exact (Prod.mk.inj (Option.some.inj h)).1.symm
    | some _ =>
      dsimp only at h
      obtain ⟨_, -, h⟩ := obind_elim h
      obtain ⟨_, -, h⟩ := obind_elim h
      obtain ⟨_, -, h⟩ := obind_elim h
      obtain ⟨_, -, h⟩ := obind_elim h
      obtain ⟨_, -, h⟩ := obind_elim h
      split_ifs at h
      obtain ⟨_, -, h⟩ := obind_elim h
      obtain ⟨_, -, h⟩ := obind_elim h
      exact (Prod.mk.inj (Option.some.inj h)).1.symm

/-- The tree in memory does not depend on the database. -/
theorem putAt_same {E : Curve G1 G2 GT} {PP : PP G1 G2 GT} {env : Env} {F : ℕ} {data : Option Data} {path : List ℕ}
    {ps : Str} {v v1 v2 : Sparse.Vertex Data} {s1 s2 s1' s2' : State}
    (h1 : putAt F (updateInnerVertex E PP env) data path ps v s1 = some (v1, s1'))
    (h2 : putAt F (updateInnerVertex E PP env) data path ps v s2 = some (v2, s2')) : v1 = v2 := by
  induction path generalizing ps v v1 v2 s1 s2 s1' s2' with
  | nil => rw [(putAt_nil h1).1, (putAt_nil h2).1]
  | cons p rest ih =>
    obtain ⟨c1, _, d1, hr1, -, hu1, rfl⟩ := putAt_cons h1
    obtain ⟨c2, _, d2, hr2, -, hu2, rfl⟩ := putAt_cons h2
    rw [ih hr1 hr2, update_data hu1, update_data hu2]

/-- What a tree over a shared database has after the writes `hist` of its own: its memory is the one of a run of its own
from the state `s0`, and it is backed by the database. -/
def Own (E : Curve G1 G2 GT) (env : Env) (α : Zr) (F L : ℕ) (t0 : Tree G1 G2 GT) (s0 : State) (hist : List (Str × ℤ))
    (t : Tree G1 G2 GT) (db : Db) : Prop :=
  (∃ s, t0.puts E env hist s0 = some (t, s)) ∧ (t.root = none ∨ ∃ v, t.root = some v ∧ Backed E α F L [] v db)

theorem Own.mono {E : Curve G1 G2 GT} {env : Env} {α : Zr} {F L : ℕ} {t0 t : Tree G1 G2 GT} {s0 : State}
    {hist : List (Str × ℤ)} {db db' : Db} (h : Own E env α F L t0 s0 hist t db) (hk : Keeps E α F L db db') :
    Own E env α F L t0 s0 hist t db' := by
  refine ⟨h.1, h.2.imp_right ?_⟩
  rintro ⟨v, hv, hb⟩
  exact ⟨v, hv, hb.mono hk (by simp)⟩

/-- One more write of its own. -/
theorem Own.put {E : Curve G1 G2 GT} (hE : E.Lawful) {env : Env} (henv : env.Lawful) {α : Zr} {F L : ℕ}
    (hF : F + 2 ≤ 65536) {t0 t : Tree G1 G2 GT} {s0 : State} {hist : List (Str × ℤ)} {s : State}
    (hPP : t0.PP = newPublicParams E α (F + 2)) (hfan : t0.fanOut = F) (hroot : t0.root = none) (hL : 1 ≤ L)
    (h : Own E env α F L t0 s0 hist t s.db) (id : Str) (n : ℤ) (hids : ValidIds t0.id2Path F L (hist ++ [(id, n)])) :
    ∃ t' s', t.put E env id n s = some (t', s') ∧ Own E env α F L t0 s0 (hist ++ [(id, n)]) t' s'.db ∧
      Keeps E α F L s.db s'.db := by
  obtain ⟨⟨so, ho⟩, hb⟩ := h
  obtain ⟨to', so', ho', -⟩ := puts_good hE henv α F hF t0 hPP hfan hroot L hL (hist ++ [(id, n)]) s0 hids
  have hown := ho'
  rw [vputs_concat, ho, Option.bind_some] at ho'
  dsimp only at ho'
  obtain ⟨p, hp, hpL, hpF⟩ := hids (id, n) (by simp)
  have hf : t = { t0 with root := t.root } := by
    rw [vputs_sparse] at ho
    obtain ⟨⟨ts, s1⟩, -, h2⟩ := Option.map_eq_some_iff.1 ho
    simp only [Prod.mk.injEq] at h2
    rw [← h2.1]
  have e1 : t.PP = newPublicParams E α (F + 2) := by rw [hf]; exact hPP
  have e2 : t.fanOut = F := by rw [hf]; exact hfan
  have e3 : t.id2Path id = some p := by rw [hf]; exact hp
  have hv : Fresh [] (t.root.getD (.mk [] none [])) ∨ Backed E α F p.length [] (t.root.getD (.mk [] none [])) s.db := by
    rcases hb with hb | ⟨v, hv, hb⟩
    · left; rw [hb]; rfl
    · right; rw [hv, hpL]; exact hb
  obtain ⟨v', s', hput, hback, hkeep⟩ := putAt_backed hE henv α F L hF n p hpF [] (by simpa using hpL) _ s hv
  rw [← e1, ← e2] at hput
  have hput' := vput_eq (t := t) e3 hput
  refine ⟨_, s', hput', ⟨?_, .inr ⟨v', rfl, by rw [← hpL]; exact hback⟩⟩, hkeep⟩
  -- the run of its own has the same memory
  have hq : ∃ vo, putAt t.fanOut (updateInnerVertex E t.PP env) (some (.amount n)) p []
      (t.root.getD (.mk [] none [])) so = some (vo, so') ∧ to' = { t with root := some vo } := by
    unfold Tree.put at ho'
    obtain ⟨⟨ts, s1⟩, h1, h2⟩ := obind_elim ho'
    unfold Sparse.Tree.put at h1
    obtain ⟨p', hp', h1⟩ := obind_elim h1
    have : p' = p := by
      have : t.id2Path id = some p' := hp'
      rw [e3, Option.some.injEq] at this
      exact this.symm
    subst this
    obtain ⟨⟨vo, s2⟩, h3, h4⟩ := obind_elim h1
    simp only [Option.pure_def, Option.some.injEq, Prod.mk.injEq] at h4 h2
    obtain ⟨rfl, rfl⟩ := h4
    obtain ⟨rfl, rfl⟩ := h2
    exact ⟨vo, h3, rfl⟩
  obtain ⟨vo, hq, rfl⟩ := hq
  have := putAt_same hq hput
  subst this
  exact ⟨so', hown⟩

end PoL.Verkle

namespace PoL.Verkle
open PoL.PP Sparse Spec

variable {G1 G2 GT : Type} [AddCommGroup G1] [Module Zr G1] [AddCommGroup G2] [Module Zr G2]
  [AddCommGroup GT] [Module Zr GT] [DecidableEq G1] [DecidableEq GT]

theorem mapM_isSome {A B : Type} (f : A → Option B) (l : List A) (h : ∀ a ∈ l, ∃ b, f a = some b) : ∃ r, l.mapM f = some r := by
  induction l with
  | nil => exact ⟨[], rfl⟩
  | cons a l ih =>
    obtain ⟨b, hb⟩ := h a (by simp)
    obtain ⟨r, hr⟩ := ih fun x hx => h x (by simp [hx])
    exact ⟨b :: r, by rw [List.mapM_cons]; exact obind_step hb (obind_step hr rfl)⟩

/-- What `Get` finds does not depend on the database. -/
theorem get_same {E : Curve G1 G2 GT} {env : Env} {t : Tree G1 G2 GT} {id : Str} {db db' : Db}
    {r r' : Option (ℤ × List (Vertex G1))} (h : t.get E env id db = some r) (h' : t.get E env id db' = some r') :
    r.map Prod.fst = r'.map Prod.fst := by
  unfold Tree.get at h h'
  obtain ⟨x, hx, h⟩ := obind_elim h
  obtain ⟨x', hx', h'⟩ := obind_elim h'
  rw [hx, Option.some.injEq] at hx'
  subst hx'
  cases x with
  | none =>
    simp only [Option.pure_def, Option.some.injEq] at h h'
    rw [← h, ← h']
  | some np =>
    obtain ⟨n, path⟩ := np
    dsimp only at h h'
    obtain ⟨vs, -, h⟩ := obind_elim h
    obtain ⟨vs', -, h'⟩ := obind_elim h'
    obtain ⟨a, ha, h⟩ := obind_elim h
    obtain ⟨a', ha', h'⟩ := obind_elim h'
    rw [ha, Option.some.injEq] at ha'
    subst ha'
    obtain ⟨b, hb, h⟩ := obind_elim h
    obtain ⟨b', hb', h'⟩ := obind_elim h'
    rw [hb, Option.some.injEq] at hb'
    subst hb'
    simp only [Option.pure_def, Option.some.injEq] at h h'
    rw [← h, ← h']
    rfl

/-- `Get` returns, over a database that backs the tree, where it does over some other one. -/
theorem Own.get {E : Curve G1 G2 GT} {env : Env} {α : Zr} {F L : ℕ} {t0 t : Tree G1 G2 GT} {s0 : State}
    {hist : List (Str × ℤ)} {db db' : Db} (h : Own E env α F L t0 s0 hist t db) {id : Str} {p : List ℕ}
    (hp : t.id2Path id = some p) (hpL : p.length = L) {r' : Option (ℤ × List (Vertex G1))}
    (h' : t.get E env id db' = some r') : ∃ r, t.get E env id db = some r ∧ r.map Prod.fst = r'.map Prod.fst := by
  suffices hs : ∃ r, t.get E env id db = some r by
    obtain ⟨r, hr⟩ := hs
    exact ⟨r, hr, get_same hr h'⟩
  unfold Tree.get at h' ⊢
  obtain ⟨x, hx, h'⟩ := obind_elim h'
  cases x with
  | none => exact ⟨none, obind_step hx rfl⟩
  | some np =>
    obtain ⟨n, path⟩ := np
    dsimp only at h'
    obtain ⟨vs', -, h'⟩ := obind_elim h'
    obtain ⟨a, ha, h'⟩ := obind_elim h'
    obtain ⟨b, hb, -⟩ := obind_elim h'
    have hvs : ∃ vs, path.mapM (fun u => do
        let key ← (← u.data).str
        Vertex.fromBytes E (db key)) = some vs := by
      apply mapM_isSome
      intro u hu
      unfold Sparse.Tree.get at hx
      obtain ⟨p', hp', hx⟩ := obind_elim hx
      have : p' = p := by
        have : t.id2Path id = some p' := hp'
        rw [hp, Option.some.injEq] at this
        exact this.symm
      subst this
      have e : (t.sparse E env).root = t.root := by simp only [Tree.sparse]
      rw [e] at hx
      rcases h.2 with hr | ⟨v, hv, hb⟩
      · rw [hr] at hx
        simp at hx
      · rw [hv] at hx
        dsimp only at hx
        have hx : getAt p' v = some (n, path) := by simpa using hx
        obtain ⟨-, hlen, hi⟩ := getAt_some_iff p' v n path hx
        obtain ⟨i, hil, rfl⟩ := List.getElem_of_mem hu
        have hi' := hi i (by omega)
        rw [List.getElem?_eq_getElem hil] at hi'
        have hbu := hb.find (p'.take i) (by rw [List.length_take]; omega) _ hi'.symm
        have hl : L - (p'.take i).length = (L - i - 1) + 1 := by rw [List.length_take]; omega
        rw [hl] at hbu
        obtain ⟨y, hy⟩ := hbu.2.2.2.stored
        exact ⟨y, obind_step hbu.2.1 (obind_step (show Data.str (.key _) = some _ from rfl) (load_fromBytes hy))⟩
    obtain ⟨vs, hvs⟩ := hvs
    refine ⟨some (b, vs), obind_step hx ?_⟩
    dsimp only
    exact obind_step hvs (obind_step ha (obind_step hb rfl))

end PoL.Verkle

namespace PoL.Pol
open PoL.PP Verkle Spec

variable {G1 G2 GT : Type} [AddCommGroup G1] [Module Zr G1] [AddCommGroup G2] [Module Zr G2]
  [AddCommGroup GT] [Module Zr GT] [DecidableEq G1] [DecidableEq GT]

theorem zrInt_back {x : Zr} {n : ℤ} (h : zrInt x = some n) : intToZr n = x := by
  unfold zrInt at h
  split_ifs at h
  have h := Option.some.inj h
  subst h
  unfold intToZr
  simp

/-- What a set over a shared database has after the writes `hist` of its own. -/
def OwnSet (E : Curve G1 G2 GT) (env : Env) (α : Zr) (F L : ℕ) (ls0 : LiabilitySet G1 G2 GT) (hist : List (Str × ℤ))
    (ls : LiabilitySet G1 G2 GT) (db : Db) : Prop :=
  Own E env α F L ls0.tree ls0.s hist ls.tree db ∧ ls.pp = ls0.pp ∧ ls.memRoot = ls0.memRoot

theorem OwnSet.mono {E : Curve G1 G2 GT} {env : Env} {α : Zr} {F L : ℕ} {ls0 ls : LiabilitySet G1 G2 GT}
    {hist : List (Str × ℤ)} {db db' : Db} (h : OwnSet E env α F L ls0 hist ls db) (hk : Keeps E α F L db db') :
    OwnSet E env α F L ls0 hist ls db' := ⟨h.1.mono hk, h.2⟩

theorem OwnSet.set {E : Curve G1 G2 GT} (hE : E.Lawful) {env : Env} (henv : env.Lawful) {α : Zr} {F L : ℕ}
    {ls0 ls : LiabilitySet G1 G2 GT} (hn : NewSet E α F L ls0) {hist : List (Str × ℤ)} {s : State}
    (h : OwnSet E env α F L ls0 hist ls s.db) (id : Str) (n : ℤ) (hpos : 0 ≤ n)
    (hids : ValidIds ls0.tree.id2Path F L (hist ++ [(id, n)])) :
    ∃ ls', ({ ls with s := s } : LiabilitySet G1 G2 GT).set E env id n = some ls' ∧
      OwnSet E env α F L ls0 (hist ++ [(id, n)]) ls' ls'.s.db ∧ Keeps E α F L s.db ls'.s.db := by
  have hL := hn.pp.depth
  obtain ⟨t', s', h1, h2, h3⟩ := h.1.put hE henv hn.tree.bound.le hn.tree.pp hn.tree.fanOut hn.tree.root (by omega) id n hids
  refine ⟨{ ls with tree := t', s := s' }, ?_, ⟨h2, h.2⟩, h3⟩
  unfold LiabilitySet.set
  rw [if_neg (by omega)]
  exact obind_step h1 rfl

/-- Both sets have what they have after the writes of their own. -/
def Both (E : Curve G1 G2 GT) (env : Env) (α : Zr) (F L : ℕ) (x0 : Shared G1 G2 GT) (es : List (Bool × Str × ℤ))
    (x : Shared G1 G2 GT) : Prop :=
  OwnSet E env α F L x0.a (callsThrough true es) x.a x.s.db ∧ OwnSet E env α F L x0.b (callsThrough false es) x.b x.s.db

theorem callsThrough_concat (w : Bool) (es : List (Bool × Str × ℤ)) (e : Bool × Str × ℤ) :
    callsThrough w (es ++ [e]) = callsThrough w es ++ if e.1 = w then [e.2] else [] := by
  unfold callsThrough
  rw [List.filter_append, List.map_append]
  congr 1
  by_cases h : e.1 = w <;> simp [h]

theorem mem_callsThrough {w : Bool} {es : List (Bool × Str × ℤ)} {c : Str × ℤ} (h : c ∈ callsThrough w es) : (w, c) ∈ es := by
  unfold callsThrough at h
  obtain ⟨e, he, rfl⟩ := List.mem_map.1 h
  obtain ⟨h1, h2⟩ := List.mem_filter.1 he
  rw [beq_iff_eq] at h2
  subst h2
  exact h1

theorem shared_concat (E : Curve G1 G2 GT) (env : Env) (x : Shared G1 G2 GT) (es : List (Bool × Str × ℤ)) (e : Bool × Str × ℤ) :
    x.sets E env (es ++ [e]) = (x.sets E env es).bind fun y => y.set E env e := by
  unfold Shared.sets
  rw [List.foldlM_append]
  simp

/-- Any interleaving of writes returns, and each set has what it has after the writes of its own. -/
theorem shared_both {E : Curve G1 G2 GT} (hE : E.Lawful) {env : Env} (henv : env.Lawful) {α : Zr} {F L : ℕ}
    {x : Shared G1 G2 GT} (ha : NewSet E α F L x.a) (hb : NewSet E α F L x.b) (es : List (Bool × Str × ℤ))
    (hia : ValidIds x.a.tree.id2Path F L (callsThrough true es)) (hib : ValidIds x.b.tree.id2Path F L (callsThrough false es))
    (hpos : ∀ e ∈ es, 0 ≤ e.2.2) : ∃ x', x.sets E env es = some x' ∧ Both E env α F L x es x' := by
  induction es using List.reverseRecOn with
  | nil =>
    exact ⟨x, rfl, ⟨⟨⟨x.a.s, vputs_nil ..⟩, .inl ha.tree.root⟩, rfl, rfl⟩,
      ⟨⟨⟨x.b.s, vputs_nil ..⟩, .inl hb.tree.root⟩, rfl, rfl⟩⟩
  | append_singleton es e ih =>
    rw [callsThrough_concat] at hia hib
    obtain ⟨y, hy, hya, hyb⟩ := ih (fun c hc => hia c (by simp [hc])) (fun c hc => hib c (by simp [hc]))
      (fun c hc => hpos c (by simp [hc]))
    have he := hpos e (by simp)
    obtain ⟨w, id, n⟩ := e
    cases w with
    | true =>
      obtain ⟨ls', h1, h2, h3⟩ := hya.set hE henv ha id n he (by simpa using hia)
      refine ⟨⟨ls', y.b, ls'.s⟩, ?_, ?_⟩
      · rw [shared_concat, hy, Option.bind_some]
        unfold Shared.set
        rw [if_pos rfl]
        exact obind_step h1 rfl
      · unfold Both
        rw [callsThrough_concat, callsThrough_concat, if_pos rfl, if_neg (by simp), List.append_nil]
        exact ⟨h2, hyb.mono h3⟩
    | false =>
      obtain ⟨ls', h1, h2, h3⟩ := hyb.set hE henv hb id n he (by simpa using hib)
      refine ⟨⟨y.a, ls', ls'.s⟩, ?_, ?_⟩
      · rw [shared_concat, hy, Option.bind_some]
        unfold Shared.set
        rw [if_neg (by simp)]
        exact obind_step h1 rfl
      · unfold Both
        rw [callsThrough_concat, callsThrough_concat, if_pos rfl, if_neg (by simp), List.append_nil]
        exact ⟨hya.mono h3, h2⟩

/-- Writes of the second set only. -/
theorem shared_second (E : Curve G1 G2 GT) (env : Env) (x : Shared G1 G2 GT) (hist : List (Str × ℤ)) :
    ∀ x', x.sets E env (hist.map fun e => (false, e)) = some x' → x.setB.sets E env hist = some x'.setB ∧ x'.a = x.a := by
  induction hist using List.reverseRecOn with
  | nil =>
    intro x' h
    have : x = x' := Option.some.inj h
    subst this
    exact ⟨rfl, rfl⟩
  | append_singleton hist e ih =>
    intro x' h
    rw [List.map_append, List.map_cons, List.map_nil, shared_concat] at h
    obtain ⟨y, hy, h⟩ := Option.bind_eq_some_iff.1 h
    obtain ⟨h1, h2⟩ := ih y hy
    unfold Shared.set at h
    rw [if_neg (by simp)] at h
    obtain ⟨ls, h3, h4⟩ := obind_elim h
    have h4 := Option.some.inj h4
    subst h4
    refine ⟨?_, h2⟩
    rw [sets_append, h1, Option.bind_some]
    unfold LiabilitySet.sets
    simp only [List.foldlM_cons, List.foldlM_nil, h3, Option.bind_eq_bind, Option.bind_some, Option.pure_def]
    rfl

end PoL.Pol
