import Verif.Proofs.Shared
import Verif.Proofs.VerkleBlind
import Verif.Spec.Access

/-! The calls of the database: the functions of `Model/Access.lean` return what those without the list return, and which
calls they append. -/

set_option linter.unusedSectionVars false

namespace PoL.Trace
open PoL.PP Verkle Pol Spec

variable {G1 G2 GT : Type} [AddCommGroup G1] [Module Zr G1] [AddCommGroup G2] [Module Zr G2]
  [AddCommGroup GT] [Module Zr GT]

/-- The key a data item is, the empty one if it is none. -/
def strOf (d : Option Data) : Str := (d.bind Data.str).getD []

theorem fetch_eq (E : Curve G1 G2 GT) (db : Db) (desc : Option Data) (tr : List Access) :
    fetchVertex E db desc tr = (Verkle.fetchVertex E db desc).map fun v => (v, tr ++ [.get (strOf desc)]) := by
  unfold fetchVertex Verkle.fetchVertex
  cases desc with
  | none => rfl
  | some d =>
    cases d with
    | amount n => rfl
    | key k =>
      show (if (db k).length = 0 then none else _) = Option.map _ (if (db k).length = 0 then none else _)
      split_ifs
      · rfl
      · cases Vertex.fromBytes E (db k) <;> rfl

theorem loop_eq (E : Curve G1 G2 GT) (db : Db) (ds : List (Option Data)) (i : ℕ) (a : InnerAcc) (tr : List Access) :
    innerLoop E db ds i a tr = (Verkle.innerLoop E db ds i a).map fun a' =>
      (a', tr ++ (ds.filterMap id).map fun d => .get (strOf (some d))) := by
  induction ds generalizing i a tr with
  | nil => simp [innerLoop, Verkle.innerLoop]
  | cons d ds ih =>
    cases d with
    | none => simp only [innerLoop, Verkle.innerLoop, ih]; rfl
    | some d =>
      simp only [innerLoop, Verkle.innerLoop, fetch_eq]
      cases Verkle.fetchVertex E db (some d) with
      | none => rfl
      | some x =>
        show (x.digest E >>= fun digest => _) = Option.map _ (x.digest E >>= fun digest => _)
        cases x.digest E with
        | none => rfl
        | some y =>
          show innerLoop _ _ _ _ _ _ = Option.map _ (Verkle.innerLoop _ _ _ _ _)
          rw [ih]
          simp

variable [DecidableEq G1] [DecidableEq GT]

/-- The calls of one call of the callback. -/
def calls (key : Str) (node : Option Data) (ds : List (Option Data)) (leaf : Bool) (i : ℕ) : List Access :=
  (if node.isSome then [.get key] else []) ++
  (if leaf then [] else if node.isSome then [.get (strOf ((ds[i]?).getD none))]
    else (ds.filterMap id).map fun d => .get (strOf (some d))) ++ [.put key]

theorem update_eq (E : Curve G1 G2 GT) (PP : PP G1 G2 GT) (env : Env) (key : Str) (node : Option Data)
    (ds : List (Option Data)) (leaf : Bool) (i : ℕ) (s : State) (tr : List Access) :
    updateInnerVertex E PP env key node ds leaf i (s, tr) =
      (Verkle.updateInnerVertex E PP env key node ds leaf i s).map fun r => (r.1, r.2, tr ++ calls key node ds leaf i) := by
  unfold updateInnerVertex Verkle.updateInnerVertex
  cases leaf with
  | true =>
    rw [if_pos rfl, if_pos rfl]
    unfold updateLayerAboveLeaves Verkle.updateLayerAboveLeaves
    cases node with
    | none =>
      dsimp only
      cases leafLoop ds 0 (intToZr 0, .empty, []) with
      | none => rfl
      | some r =>
        obtain ⟨sum, values, m⟩ := r
        show (PP.commit _ >>= fun V => _) = Option.map _ (PP.commit _ >>= fun V => _)
        generalize PP.commit (m ++ [sum] ++ [env.rand s.tick]) = o
        cases o with
        | none => rfl
        | some V =>
          show some _ = some _
          simp [calls, store]
    | some d =>
      dsimp only
      rw [fetch_eq]
      cases Verkle.fetchVertex E s.db (some (.key key)) with
      | none => rfl
      | some v =>
        show (ds[i]? >>= fun x => _) = Option.map _ (ds[i]? >>= fun x => _)
        cases ds[i]? with
        | none => rfl
        | some x =>
          cases x with
          | none => rfl
          | some x =>
            cases x with
            | key k => rfl
            | amount n =>
              show (PP.update _ _ _ _ >>= fun V => _) = Option.map _ (PP.update _ _ _ _ >>= fun V => _)
              cases PP.update v.V _ (intToZr n) i with
              | none => rfl
              | some V =>
                show (PP.update _ _ _ _ >>= fun V => _) = Option.map _ (PP.update _ _ _ _ >>= fun V => _)
                generalize PP.update V _ _ _ = o
                cases o with
                | none => rfl
                | some V' =>
                  show some _ = some _
                  simp [calls, store, strOf, Data.str]
  | false =>
    rw [if_neg (by simp), if_neg (by simp)]
    unfold updateInnerLayer Verkle.updateInnerLayer
    cases node with
    | none =>
      dsimp only
      rw [loop_eq]
      cases Verkle.innerLoop E s.db ds 0 ⟨intToZr 0, .empty, .empty, [], []⟩ with
      | none => rfl
      | some a =>
        show (PP.commit _ >>= fun V => _) = Option.map _ (PP.commit _ >>= fun V => _)
        generalize PP.commit (a.m ++ [a.sum] ++ [env.rand s.tick]) = o
        cases o with
        | none => rfl
        | some V =>
          show (PP.commit _ >>= fun V => _) = Option.map _ (PP.commit _ >>= fun V => _)
          generalize PP.commit (a.d ++ [intToZr 0] ++ [intToZr 0]) = o
          cases o with
          | none => rfl
          | some W =>
            show some _ = some _
            simp [calls, store]
    | some d =>
      dsimp only
      rw [fetch_eq]
      cases Verkle.fetchVertex E s.db (some (.key key)) with
      | none => rfl
      | some v =>
        show (ds[i]? >>= fun x => _) = Option.map _ (ds[i]? >>= fun x => _)
        cases hd : ds[i]? with
        | none => rfl
        | some x =>
          show (fetchVertex _ _ _ _ >>= fun x => _) = Option.map _ (Verkle.fetchVertex _ _ _ >>= fun x => _)
          rw [fetch_eq]
          cases Verkle.fetchVertex E s.db x with
          | none => rfl
          | some y =>
            show (y.digest E >>= fun x => _) = Option.map _ (y.digest E >>= fun x => _)
            cases y.digest E with
            | none => rfl
            | some z =>
              show (List.mapM _ _ >>= fun x => _) = Option.map _ (List.mapM _ _ >>= fun x => _)
              generalize List.mapM (m := Option) _ _ = o
              cases o with
              | none => rfl
              | some d =>
                show (if _ then none else _) = Option.map _ (if _ then none else _)
                split_ifs
                · rfl
                · show (PP.commit _ >>= fun V => _) = Option.map _ (PP.commit _ >>= fun V => _)
                  generalize PP.commit (List.set _ _ _) = o
                  cases o with
                  | none => rfl
                  | some V =>
                    show (PP.commit _ >>= fun V => _) = Option.map _ (PP.commit _ >>= fun V => _)
                    generalize PP.commit d = o
                    cases o with
                    | none => rfl
                    | some W =>
                      show some _ = some _
                      simp [calls, store, strOf, Data.str, hd]

/-- What `writeAccesses` is from a prefix on. -/
noncomputable def below (h : List (List ℕ × ℤ)) : List ℕ → List ℕ → List Access
  | _, [] => []
  | pre, p :: rest => below h (pre ++ [p]) rest ++ (readPassed h pre ++
      (if rest.isEmpty then [] else [.get (keyOf (pre ++ [p]))]) ++ [.put (keyOf pre)])

theorem below_eq (h : List (List ℕ × ℤ)) (pre path : List ℕ) :
    below h pre path = (List.range path.length).reverse.flatMap fun i =>
      readPassed h (pre ++ path.take i) ++
      (if i + 1 < path.length then [.get (keyOf (pre ++ path.take (i + 1)))] else []) ++
      [.put (keyOf (pre ++ path.take i))] := by
  induction path generalizing pre with
  | nil => rfl
  | cons p rest ih =>
    rw [below, ih, List.length_cons, List.range_succ_eq_map, List.reverse_cons, List.flatMap_append]
    congr 1
    · rw [← List.map_reverse, List.flatMap_map]
      congr 1
      funext i
      simp
    · cases rest <;> simp

theorem writeAccesses_eq (h : List (List ℕ × ℤ)) (path : List ℕ) : writeAccesses h path = below h [] path := by
  rw [below_eq]
  simp [writeAccesses]

theorem readPassed_pos {h : List (List ℕ × ℤ)} {q : List ℕ} (hq : touched h q) : readPassed h q = [.get (keyOf q)] := by
  unfold readPassed; rw [if_pos hq]

theorem readPassed_neg {h : List (List ℕ × ℤ)} {q : List ℕ} (hq : ¬ touched h q) : readPassed h q = [] := by
  unfold readPassed; rw [if_neg hq]

theorem readPassed_cases (h : List (List ℕ × ℤ)) (q : List ℕ) : readPassed h q = [.get (keyOf q)] ∨ readPassed h q = [] := by
  by_cases hq : touched h q
  · exact .inl (readPassed_pos hq)
  · exact .inr (readPassed_neg hq)

theorem putKeys_append (a b : List Access) : putKeys (a ++ b) = putKeys a ++ putKeys b := List.filterMap_append ..

theorem getKeys_append (a b : List Access) : getKeys (a ++ b) = getKeys a ++ getKeys b := List.filterMap_append ..

theorem below_puts (h : List (List ℕ × ℤ)) (pre path : List ℕ) :
    putKeys (below h pre path) = (List.range path.length).reverse.map fun i => keyOf (pre ++ path.take i) := by
  induction path generalizing pre with
  | nil => rfl
  | cons p rest ih =>
    rw [below, putKeys_append, ih, List.length_cons, List.range_succ_eq_map, List.reverse_cons, List.map_append]
    congr 1
    · rw [← List.map_reverse, List.map_map]
      congr 1
      funext i
      simp
    · rcases readPassed_cases h pre with hc | hc <;> rw [hc] <;> cases rest <;> simp [putKeys]

theorem below_gets (h : List (List ℕ × ℤ)) (pre path : List ℕ) :
    ∀ k ∈ getKeys (below h pre path), ∃ i < path.length, k = keyOf (pre ++ path.take i) := by
  induction path generalizing pre with
  | nil => simp [below, getKeys]
  | cons p rest ih =>
    intro k hk
    rw [below, getKeys_append, List.mem_append] at hk
    rcases hk with hk | hk
    · obtain ⟨i, hi, rfl⟩ := ih _ k hk
      exact ⟨i + 1, by simpa using hi, by simp⟩
    · have : k = keyOf pre ∨ (rest ≠ [] ∧ k = keyOf (pre ++ [p])) := by
        rcases readPassed_cases h pre with hc | hc <;> rw [hc] at hk <;> cases rest <;> simp [getKeys] at hk ⊢ <;> tauto
      rcases this with rfl | ⟨hr, rfl⟩
      · exact ⟨0, by simp, by simp⟩
      · exact ⟨1, by simpa using List.length_pos_iff.2 hr, by simp⟩

/-- How many calls: `k` is the number of vertices that are there already. -/
theorem below_length (h : List (List ℕ × ℤ)) (pre path : List ℕ) (hp : path ≠ []) :
    ∃ k ≤ path.length, (below h pre path).length + 1 = 2 * path.length + k ∧
      ((∀ q, ¬ touched h (pre ++ q)) → k = 0) ∧ (touched h (pre ++ path) → k = path.length) := by
  induction path generalizing pre with
  | nil => exact absurd rfl hp
  | cons p rest ih =>
    have hdown : touched h (pre ++ p :: rest) → touched h pre := by
      rintro ⟨e, he, r, hr⟩
      exact ⟨e, he, p :: rest ++ r, by rw [← hr]; simp⟩
    have hb : ∃ b ≤ 1, (readPassed h pre).length = b ∧ ((∀ q, ¬ touched h (pre ++ q)) → b = 0) ∧
        (touched h (pre ++ p :: rest) → b = 1) := by
      by_cases ht : touched h pre
      · exact ⟨1, by omega, by rw [readPassed_pos ht]; rfl, fun hc => absurd (by simpa using ht) (hc []), fun _ => rfl⟩
      · exact ⟨0, by omega, by rw [readPassed_neg ht]; rfl, fun _ => rfl, fun hc => absurd (hdown hc) ht⟩
    obtain ⟨b, hb1, hbl, hb0, hb2⟩ := hb
    by_cases hr : rest = []
    · subst hr
      refine ⟨b, by simpa using hb1, ?_, hb0, by simpa using hb2⟩
      simp [below, hbl]
      omega
    · obtain ⟨k, hk, hkl, hk0, hk1⟩ := ih (pre ++ [p]) hr
      refine ⟨k + b, by simp; omega, ?_, fun hc => ?_, fun hc => ?_⟩
      · have : rest.isEmpty = false := by simpa using hr
        simp only [below, List.length_append, this, hbl, List.length_cons, List.length_nil, Bool.false_eq_true, if_false]
        omega
      · rw [hk0 (fun q => by rw [List.append_assoc]; exact hc _), hb0 hc]
      · rw [hk1 (by simpa using hc), hb2 hc]
        simp

theorem historyAccesses_concat (h : List (List ℕ × ℤ)) (e : List ℕ × ℤ) :
    historyAccesses (h ++ [e]) = historyAccesses h ++ writeAccesses h e.1 := by
  unfold historyAccesses
  rw [List.length_append, List.length_singleton, List.range_succ, List.flatMap_append]
  congr 1
  · refine List.flatMap_congr fun i hi => ?_
    rw [List.mem_range] at hi
    rw [List.take_append_of_le_length hi.le, List.getElem?_append_left hi]
  · simp

theorem filterMap_single (f : ℕ → Option Data) (p F : ℕ) (hp : p < F) (d : Data) (hd : f p = some d)
    (ho : ∀ i, i ≠ p → f i = none) : ((List.range F).map f).filterMap id = [d] := by
  rw [List.filterMap_map]
  show (List.range F).filterMap f = [d]
  obtain ⟨k, rfl⟩ : ∃ k, F = p + 1 + k := ⟨F - (p + 1), by omega⟩
  rw [List.range_add, List.filterMap_append, List.range_succ, List.filterMap_append]
  have h1 : (List.range p).filterMap f = [] := by
    rw [List.filterMap_eq_nil_iff]
    intro i hi
    exact ho i (by rw [List.mem_range] at hi; omega)
  have h2 : ((List.range k).map (p + 1 + ·)).filterMap f = [] := by
    rw [List.filterMap_eq_nil_iff]
    intro i hi
    obtain ⟨j, -, rfl⟩ := List.mem_map.1 hi
    exact ho _ (by omega)
  rw [h1, h2]
  simp [hd]

/-- The calls of a `Put` below a fresh vertex or one that is backed. -/
theorem putAt_calls {E : Curve G1 G2 GT} {env : Env} {PP : PP G1 G2 GT} {α : Zr} {F : ℕ} {data : Option Data}
    (h : List (List ℕ × ℤ)) (path : List ℕ) (hpath : ∀ x ∈ path, x < F) (pre : List ℕ) (v v' : Sparse.Vertex Data)
    (s s' : State) (db : Db) (tr : List Access)
    (hv : (Fresh pre v ∧ ∀ q, ¬ touched h (pre ++ q)) ∨
      (Backed E α F path.length pre v db ∧ ∀ q, (Sparse.find q v).isSome ↔ touched h (pre ++ q)))
    (hput : Sparse.putAt F (Verkle.updateInnerVertex E PP env) data path (keyOf pre) v s = some (v', s')) :
    Sparse.putAt F (updateInnerVertex E PP env) data path (keyOf pre) v (s, tr) = some (v', s', tr ++ below h pre path) := by
  induction path generalizing pre v v' s s' tr with
  | nil =>
    obtain ⟨rfl, rfl⟩ := Sparse.putAt_nil hput
    simp [Sparse.putAt, below]
  | cons p rest ih =>
    have hp : p < F := hpath p (by simp)
    have hkey : v.key = keyOf pre := by
      rcases hv with hv | hv
      · rw [hv.1]; rfl
      · exact hv.1.1
    obtain ⟨child', s1, d, hrec, hlt, hupd, rfl⟩ := Sparse.putAt_cons hput
    set child := (Sparse.descGet v.desc p).getD (.mk (Sparse.childKey (keyOf pre) p) none []) with hchild
    have hck : (rest ≠ [] → child.key = keyOf (pre ++ [p])) ∧ ((Fresh (pre ++ [p]) child ∧ ∀ q, ¬ touched h (pre ++ [p] ++ q)) ∨
        (Backed E α F rest.length (pre ++ [p]) child db ∧ ∀ q, (Sparse.find q child).isSome ↔ touched h (pre ++ [p] ++ q))) := by
      cases hd : Sparse.descGet v.desc p with
      | none =>
        have hc : Fresh (pre ++ [p]) child := by rw [hchild, hd, Option.getD_none, Sparse.childKey_keyOf]; rfl
        refine ⟨fun _ => by rw [hc]; rfl, .inl ⟨hc, fun q hq => ?_⟩⟩
        rw [List.append_assoc] at hq
        rcases hv with hv | hv
        · exact hv.2 _ hq
        · have := (hv.2 ([p] ++ q)).2 hq
          rw [List.singleton_append, Sparse.find_cons, hd] at this
          simp at this
      | some u =>
        have hc : child = u := by rw [hchild, hd, Option.getD_some]
        rcases hv with hv | hv
        · rw [hv.1] at hd; simp [Sparse.Vertex.desc, Sparse.descGet] at hd
        · have hb := (hv.1.2.2.1 p u hd).2
          have hfind : ∀ q, (Sparse.find q child).isSome ↔ touched h (pre ++ [p] ++ q) := by
            intro q
            rw [List.append_assoc, ← hv.2, List.singleton_append, Sparse.find_cons, hd, hc]; rfl
          refine ⟨fun hr => ?_, .inr ⟨hc ▸ hb, hfind⟩⟩
          obtain ⟨k, hk⟩ : ∃ k, rest.length = k + 1 := ⟨rest.length - 1, by
            have := List.length_pos_iff.2 hr; omega⟩
          rw [hk] at hb
          rw [hc]
          exact hb.1
    have hrec' := hrec
    rw [Sparse.childKey_keyOf] at hrec
    have ih' := ih (fun x hx => hpath x (by simp [hx])) (pre ++ [p]) child child' s s1 tr hck.2 hrec
    have hcd : rest ≠ [] → child'.data = some (.key (keyOf (pre ++ [p]))) := by
      intro hr
      cases rest with
      | nil => exact absurd rfl hr
      | cons a b =>
        obtain ⟨c, _, d', -, -, hu, rfl⟩ := Sparse.putAt_cons hrec
        have := update_data hu
        rw [hck.1 hr] at this
        exact this
    rw [Sparse.putAt]
    rw [← Sparse.childKey_keyOf] at ih'
    refine obind_step ih' ?_
    dsimp only
    refine obind_step (Sparse.rawData_eq _ F hlt) ?_
    rw [update_eq, hupd]
    show some _ = some _
    rw [below, List.append_assoc]
    congr 4
    rw [hkey]
    rcases hv with hv | hv
    · have hdn : v.data = none := by rw [hv.1]; rfl
      have hnt : readPassed h pre = [] := by
        exact readPassed_neg (by simpa using hv.2 [])
      rw [hdn, hnt]
      cases rest with
      | nil => simp [calls]
      | cons a b =>
        have hdesc : Sparse.descSet v.desc p child' = [(p, child')] := by rw [hv.1]; rfl
        have := filterMap_single (fun i => (Sparse.descGet (Sparse.descSet v.desc p child') i).bind Sparse.Vertex.data) p F hp
          (.key (keyOf (pre ++ [p]))) (by
            rw [Sparse.descGet_descSet, if_pos rfl, Option.bind_some, hcd (by simp)]) (by
            intro i hi
            rw [hdesc]
            simp [Sparse.descGet, Ne.symm hi])
        simp only [calls, this]
        simp [strOf, Data.str]
    · have hds : v.data = some (.key (keyOf pre)) := hv.1.2.1
      have ht : readPassed h pre = [.get (keyOf pre)] := by
        exact readPassed_pos (by simpa using (hv.2 []).1 (by simp [Sparse.find_nil]))
      rw [hds, ht]
      cases rest with
      | nil => simp [calls]
      | cons a b =>
        have : ((List.range F).map fun i => (Sparse.descGet (Sparse.descSet v.desc p child') i).bind Sparse.Vertex.data)[p]?
            = some (some (.key (keyOf (pre ++ [p])))) := by
          rw [List.getElem?_map, List.getElem?_range hp, Option.map_some, Sparse.descGet_descSet, if_pos rfl, Option.bind_some,
            hcd (by simp)]
        simp only [calls, this]
        simp [strOf, Data.str]

/-- Without the list of calls, `putAt` is what it was. -/
theorem putAt_erase (E : Curve G1 G2 GT) (env : Env) (PP : PP G1 G2 GT) (F : ℕ) (data : Option Data) (path : List ℕ)
    (ps : Str) (v : Sparse.Vertex Data) (s : State) (tr : List Access) :
    (Sparse.putAt F (updateInnerVertex E PP env) data path ps v (s, tr)).map (fun r => (r.1, r.2.1)) =
      Sparse.putAt F (Verkle.updateInnerVertex E PP env) data path ps v s := by
  induction path generalizing ps v s tr with
  | nil => rfl
  | cons p rest ih =>
    rw [Sparse.putAt, Sparse.putAt]
    dsimp only
    rw [← ih _ _ s tr]
    cases Sparse.putAt F (updateInnerVertex E PP env) data rest (Sparse.childKey ps p)
        ((Sparse.descGet v.desc p).getD (.mk (Sparse.childKey ps p) none [])) (s, tr) with
    | none => rfl
    | some r =>
      obtain ⟨c, s1, tr1⟩ := r
      show Option.map _ (Sparse.rawData _ F >>= fun raw => _) = (Sparse.rawData _ F >>= fun raw => _)
      cases Sparse.rawData (Sparse.descSet v.desc p c) F with
      | none => rfl
      | some raw =>
        show Option.map _ (updateInnerVertex _ _ _ _ _ _ _ _ _ >>= fun raw => _) =
          (Verkle.updateInnerVertex _ _ _ _ _ _ _ _ _ >>= fun raw => _)
        rw [update_eq]
        cases Verkle.updateInnerVertex E PP env v.key v.data raw rest.isEmpty p s1 <;> rfl

theorem put_erase (E : Curve G1 G2 GT) (env : Env) (t : Tree G1 G2 GT) (id : Str) (n : ℤ) (s : State) (tr : List Access) :
    (put E env t id n (s, tr)).map (fun r => (r.1, r.2.1)) = t.put E env id n s := by
  unfold put Tree.put Sparse.Tree.put
  simp only [Tree.sparse]
  cases t.id2Path id with
  | none => rfl
  | some p =>
    show Option.map _ ((Sparse.putAt _ _ _ _ _ _ _ >>= fun r => _) >>= fun r => _) =
      ((Sparse.putAt _ _ _ _ _ _ _ >>= fun r => _) >>= fun r => _)
    rw [← putAt_erase E env t.PP t.fanOut _ p [] _ s tr]
    cases Sparse.putAt t.fanOut (updateInnerVertex E t.PP env) (some (.amount n)) p [] (t.root.getD (.mk [] none [])) (s, tr) <;> rfl

theorem set_erase (E : Curve G1 G2 GT) (env : Env) (ls : LiabilitySet G1 G2 GT) (id : Str) (n : ℤ) (tr : List Access) :
    (set E env ls id n tr).map Prod.fst = ls.set E env id n := by
  unfold set LiabilitySet.set
  split_ifs
  · rfl
  · rw [← put_erase E env ls.tree id n ls.s tr]
    cases put E env ls.tree id n (ls.s, tr) <;> rfl

theorem readLoop_eq (E : Curve G1 G2 GT) (db : Db) (us : List (Sparse.Vertex Data)) (tr : List Access) :
    readLoop E db us tr = (us.mapM (m := Option) fun u : Sparse.Vertex Data => do
      let key ← (← u.data).str
      Vertex.fromBytes E (db key)).map fun vs => (vs, tr ++ us.map fun u => Access.get (strOf u.data)) := by
  induction us generalizing tr with
  | nil => simp [readLoop]
  | cons u us ih =>
    rw [readLoop, List.mapM_cons]
    cases hd : u.data with
    | none => rfl
    | some d =>
      cases d with
      | amount n => rfl
      | key k =>
        show (Vertex.fromBytes E (db k) >>= fun v => _) = Option.map _ (Vertex.fromBytes E (db k) >>= fun v => _)
        cases Vertex.fromBytes E (db k) with
        | none => rfl
        | some v =>
          show (readLoop _ _ _ _ >>= fun v => _) = Option.map _ (List.mapM _ _ >>= fun v => _)
          rw [ih]
          generalize List.mapM (m := Option) _ us = o
          cases o with
          | none => rfl
          | some vs =>
            show some _ = some _
            simp [strOf, Data.str, hd]

theorem treeGet_erase (E : Curve G1 G2 GT) (env : Env) (t : Tree G1 G2 GT) (id : Str) (db : Db) (tr : List Access) :
    (treeGet E env t id db tr).map Prod.fst = t.get E env id db := by
  unfold treeGet Tree.get
  cases (t.sparse E env).get id with
  | none => rfl
  | some x =>
    cases x with
    | none => rfl
    | some np =>
      obtain ⟨n, path⟩ := np
      show Option.map _ (readLoop _ _ _ _ >>= fun v => _) = (List.mapM _ _ >>= fun v => _)
      rw [readLoop_eq]
      generalize List.mapM (m := Option) _ path = o
      cases o with
      | none => rfl
      | some vs =>
        cases n with
        | none => rfl
        | some d => cases d <;> rfl

theorem get_erase (E : Curve G1 G2 GT) (env : Env) (ls : LiabilitySet G1 G2 GT) (id : Str) (tr : List Access) :
    (get E env ls id tr).map Prod.fst = ls.get E env id := by
  unfold get LiabilitySet.get
  rw [← treeGet_erase E env ls.tree id ls.s.db tr]
  cases treeGet E env ls.tree id ls.s.db tr <;> rfl

theorem root_erase (E : Curve G1 G2 GT) (ls : LiabilitySet G1 G2 GT) (tr : List Access) :
    (root E ls tr).map (fun r => (r.1, r.2.1)) = ls.root E := by
  unfold root LiabilitySet.root
  cases ls.tree.root with
  | none => rfl
  | some r =>
    cases hd : r.data with
    | none => simp [hd]
    | some d =>
      cases d with
      | amount n => simp [hd, Data.str]
      | key k =>
        simp only [hd, Data.str, memGet, Pol.memGet, Option.bind_eq_bind, Option.bind_some]
        split_ifs
        · cases Vertex.fromBytes E ls.memRoot <;> rfl
        · cases Vertex.fromBytes E (ls.s.db k) <;> rfl
        · cases Vertex.fromBytes E (ls.s.db k) <;> rfl

theorem proveTot_erase (E : Curve G1 G2 GT) (ls : LiabilitySet G1 G2 GT) (tr : List Access) :
    proveTot E ls tr = (ls.proveTot E).map fun tp => (tp, tr ++ [.get []]) := by
  unfold proveTot LiabilitySet.proveTot
  cases Vertex.fromBytes E (ls.s.db []) with
  | none => rfl
  | some v =>
    show (ls.openSumFromVertex v >>= fun v => _) = Option.map _ (ls.openSumFromVertex v >>= fun v => _)
    cases ls.openSumFromVertex v with
    | none => rfl
    | some r =>
      show (zrInt r.1 >>= fun v => _) = Option.map _ (zrInt r.1 >>= fun v => _)
      cases zrInt r.1 <;> rfl

theorem prove_erase (E : Curve G1 G2 GT) (env : Env) (ls : LiabilitySet G1 G2 GT) (rnd : ProveRand) (id : Str) (tr : List Access) :
    (proveLiability E env ls rnd id tr).map Prod.fst = ls.proveLiability E env rnd id := by
  unfold proveLiability
  have h := treeGet_erase E env ls.tree id ls.s.db tr
  cases hg : treeGet E env ls.tree id ls.s.db tr with
  | none =>
    rw [hg] at h
    unfold LiabilitySet.proveLiability
    cases ls.tree.id2Path id with
    | none => rfl
    | some p =>
      show none = (ls.tree.get E env id ls.s.db >>= fun r => _)
      rw [← h]
      rfl
  | some r =>
    show Option.map _ (ls.proveLiability E env rnd id >>= fun v => _) = _
    cases ls.proveLiability E env rnd id <;> rfl

/-- A tree after writes of its own, over the database it has written. -/
theorem own_of_puts {E : Curve G1 G2 GT} (hE : E.Lawful) {env : Env} (henv : env.Lawful) {α : Zr} {F L : ℕ}
    (hF : F + 2 ≤ 65536) {t0 : Tree G1 G2 GT} {s0 : State} (hPP : t0.PP = newPublicParams E α (F + 2))
    (hfan : t0.fanOut = F) (hroot : t0.root = none) (hL : 1 ≤ L) (hist : List (Str × ℤ))
    (hids : ValidIds t0.id2Path F L hist) {t : Tree G1 G2 GT} {s : State} (h : t0.puts E env hist s0 = some (t, s)) :
    Own E env α F L t0 s0 hist t s.db := by
  induction hist using List.reverseRecOn generalizing t s with
  | nil =>
    rw [vputs_nil, Option.some.injEq, Prod.mk.injEq] at h
    obtain ⟨rfl, rfl⟩ := h
    exact ⟨⟨s0, vputs_nil ..⟩, .inl hroot⟩
  | append_singleton hist e ih =>
    have h0 := h
    rw [vputs_concat] at h
    obtain ⟨⟨t1, s1⟩, h1, h2⟩ := Option.bind_eq_some_iff.1 h
    obtain ⟨t', s', h3, h4, -⟩ := (ih (fun c hc => hids c (by simp [hc])) h1).put hE henv hF hPP hfan hroot hL e.1 e.2 hids
    dsimp only at h2
    rw [h2, Option.some.injEq, Prod.mk.injEq] at h3
    obtain ⟨rfl, rfl⟩ := h3
    exact h4

/-- The vertices there are those writes have passed. -/
theorem own_find {E : Curve G1 G2 GT} {env : Env} {α : Zr} {F L : ℕ} {t0 t : Tree G1 G2 GT} {s0 : State}
    (hroot : t0.root = none) {hist : List (Str × ℤ)} (hids : ValidIds t0.id2Path F L hist) {db : Db}
    (h : Own E env α F L t0 s0 hist t db) :
    (t.root = none ∧ ∀ q, ¬ touched (byPath t0.id2Path hist) q) ∨
    (∃ v, t.root = some v ∧ Backed E α F L [] v db ∧ ∀ q, (Sparse.find q v).isSome ↔ touched (byPath t0.id2Path hist) q) := by
  obtain ⟨⟨s, hs⟩, hb⟩ := h
  rcases hb with hb | ⟨v, hv, hb⟩
  · refine .inl ⟨hb, fun q hq => ?_⟩
    obtain ⟨v, u, h1, -⟩ := find_touched hroot hids hs q hq
    rw [hb] at h1
    simp at h1
  · refine .inr ⟨v, hv, hb, fun q => ⟨fun hq => ?_, fun hq => ?_⟩⟩
    · obtain ⟨u, hu⟩ := Option.isSome_iff_exists.1 hq
      exact find_iff_touched hroot hids hs q v u hv hu
    · obtain ⟨v', u, h1, h2⟩ := find_touched hroot hids hs q hq
      rw [hv, Option.some.injEq] at h1
      subst h1
      rw [h2]; rfl

theorem own_fields {E : Curve G1 G2 GT} {env : Env} {α : Zr} {F L : ℕ} {t0 t : Tree G1 G2 GT} {s0 : State}
    {hist : List (Str × ℤ)} {db : Db} (h : Own E env α F L t0 s0 hist t db) : t = { t0 with root := t.root } := by
  obtain ⟨⟨s, ho⟩, -⟩ := h
  rw [vputs_sparse] at ho
  obtain ⟨⟨ts, s1⟩, -, h2⟩ := Option.map_eq_some_iff.1 ho
  simp only [Prod.mk.injEq] at h2
  rw [← h2.1]

/-- The calls of a `Put`. -/
theorem put_calls {E : Curve G1 G2 GT} (hE : E.Lawful) {env : Env} (henv : env.Lawful) {α : Zr} {F L : ℕ}
    (hF : F + 2 ≤ 65536) {t0 t : Tree G1 G2 GT} {s0 : State} {hist : List (Str × ℤ)} {s : State}
    (hPP : t0.PP = newPublicParams E α (F + 2)) (hfan : t0.fanOut = F) (hroot : t0.root = none)
    (h : Own E env α F L t0 s0 hist t s.db) (hids : ValidIds t0.id2Path F L hist) (id : Str) (n : ℤ) (p : List ℕ)
    (hp : t0.id2Path id = some p) (hpL : p.length = L) (hpF : ∀ x ∈ p, x < F) (tr : List Access) :
    ∃ r s', t.put E env id n s = some (r, s') ∧
      put E env t id n (s, tr) = some (r, s', tr ++ writeAccesses (byPath t0.id2Path hist) p) := by
  have hf := own_fields h
  have e1 : t.PP = newPublicParams E α (F + 2) := by rw [hf]; exact hPP
  have e2 : t.fanOut = F := by rw [hf]; exact hfan
  have e3 : t.id2Path id = some p := by rw [hf]; exact hp
  have hv := own_find hroot hids h
  have hv1 : (Fresh [] (t.root.getD (.mk [] none [])) ∧ ∀ q, ¬ touched (byPath t0.id2Path hist) ([] ++ q)) ∨
      (Backed E α F p.length [] (t.root.getD (.mk [] none [])) s.db ∧
        ∀ q, (Sparse.find q (t.root.getD (.mk [] none []))).isSome ↔ touched (byPath t0.id2Path hist) ([] ++ q)) := by
    rcases hv with ⟨hb, hq⟩ | ⟨v, hv, hb, hq⟩
    · left; rw [hb]; exact ⟨rfl, hq⟩
    · right; rw [hv, hpL]; exact ⟨hb, hq⟩
  obtain ⟨v', s', hput, -, -⟩ := putAt_backed hE henv α F L hF n p hpF [] (by simpa using hpL)
    (t.root.getD (.mk [] none [])) s (hv1.imp And.left And.left)
  have hcalls := putAt_calls (byPath t0.id2Path hist) p hpF [] _ v' s s' s.db tr hv1 hput
  rw [← e1, ← e2] at hput hcalls
  refine ⟨_, s', vput_eq (t := t) e3 hput, ?_⟩
  unfold put Sparse.Tree.put
  rw [writeAccesses_eq]
  refine obind_step (obind_step e3 (obind_step hcalls rfl)) rfl

/-- `Get` returns. -/
theorem own_get_returns {E : Curve G1 G2 GT} {env : Env} {α : Zr} {F L : ℕ} {t0 t : Tree G1 G2 GT} {s0 : State}
    {hist : List (Str × ℤ)} {db : Db} (h : Own E env α F L t0 s0 hist t db) (id : Str) (p : List ℕ)
    (hp : t0.id2Path id = some p) (hpL : p.length = L) : ∃ r, t.get E env id db = some r := by
  have hf := own_fields h
  have e3 : t.id2Path id = some p := by rw [hf]; exact hp
  have e : (t.sparse E env).root = t.root := by simp only [Tree.sparse]
  have hx : (t.sparse E env).get id = some (match t.root with
      | none => none
      | some v => Sparse.getAt p v) := by
    unfold Sparse.Tree.get
    refine obind_step e3 ?_
    rw [e]
    cases t.root <;> rfl
  unfold Tree.get
  rcases h.2 with hr | ⟨v, hv, hb⟩
  · rw [hr] at hx
    exact ⟨none, obind_step hx rfl⟩
  · rw [hv] at hx
    dsimp only at hx
    cases hg : Sparse.getAt p v with
    | none =>
      rw [hg] at hx
      exact ⟨none, obind_step hx rfl⟩
    | some np =>
      obtain ⟨n, path⟩ := np
      rw [hg] at hx
      obtain ⟨hd, hlen, hi⟩ := Sparse.getAt_some_iff p v n path hg
      have hvs : ∃ vs, path.mapM (m := Option) (fun u : Sparse.Vertex Data => do
          let key ← (← u.data).str
          Vertex.fromBytes E (db key)) = some vs := by
        apply mapM_isSome
        intro u hu
        obtain ⟨i, hil, rfl⟩ := List.getElem_of_mem hu
        have hi' := hi i (by omega)
        rw [List.getElem?_eq_getElem hil] at hi'
        have hbu := hb.find (p.take i) (by rw [List.length_take]; omega) _ hi'.symm
        have hl : L - (p.take i).length = (L - i - 1) + 1 := by rw [List.length_take]; omega
        rw [hl] at hbu
        obtain ⟨y, hy⟩ := hbu.2.2.2.stored
        exact ⟨y, obind_step hbu.2.1 (obind_step (show Data.str (.key _) = some _ from rfl) (load_fromBytes hy))⟩
      obtain ⟨vs, hvs⟩ := hvs
      obtain ⟨u, hu, hun⟩ := Option.map_eq_some_iff.1 hd
      have hbu := hb.find p (by omega) u hu
      rw [hpL, Nat.sub_self] at hbu
      obtain ⟨a, ha⟩ := hbu
      rw [ha] at hun
      subst hun
      refine ⟨some (a, vs), obind_step hx ?_⟩
      dsimp only
      exact obind_step hvs rfl

/-- The calls of a `Get`. -/
theorem get_calls {E : Curve G1 G2 GT} {env : Env} {α : Zr} {F L : ℕ} {t0 t : Tree G1 G2 GT} {s0 : State}
    {hist : List (Str × ℤ)} {db : Db} (hroot : t0.root = none) (h : Own E env α F L t0 s0 hist t db)
    (hids : ValidIds t0.id2Path F L hist) (id : Str) (p : List ℕ) (hp : t0.id2Path id = some p) (hpL : p.length = L)
    (tr : List Access) {r : Option (ℤ × List (Vertex G1))} (hr : t.get E env id db = some r) :
    treeGet E env t id db tr = some (r, tr ++ readAccesses (byPath t0.id2Path hist) p) := by
  have hf := own_fields h
  have e3 : t.id2Path id = some p := by rw [hf]; exact hp
  have e : (t.sparse E env).root = t.root := by simp only [Tree.sparse]
  have hx : (t.sparse E env).get id = some (match t.root with
      | none => none
      | some v => Sparse.getAt p v) := by
    unfold Sparse.Tree.get
    refine obind_step e3 ?_
    rw [e]
    cases t.root <;> rfl
  have her := treeGet_erase E env t id db tr
  rw [hr] at her
  obtain ⟨⟨r', tr'⟩, h1, h2⟩ := Option.map_eq_some_iff.1 her
  dsimp only at h2
  subst h2
  rw [h1]
  congr 2
  unfold treeGet at h1
  obtain ⟨x, hx', h1⟩ := obind_elim h1
  rw [hx, Option.some.injEq] at hx'
  rcases own_find hroot hids h with ⟨hb, hq⟩ | ⟨v, hv, hb, hq⟩
  · rw [hb] at hx'
    dsimp only at hx'
    subst hx'
    simp only [Option.pure_def, Option.some.injEq, Prod.mk.injEq] at h1
    unfold readAccesses
    rw [if_neg (hq p), ← h1.2]
    simp
  · rw [hv] at hx'
    dsimp only at hx'
    cases hg : Sparse.getAt p v with
    | none =>
      rw [hg] at hx'
      subst hx'
      simp only [Option.pure_def, Option.some.injEq, Prod.mk.injEq] at h1
      unfold readAccesses
      rw [if_neg, ← h1.2]
      · simp
      · rw [← hq, ← Sparse.getAt_isSome_iff, hg]
        simp
    | some np =>
      obtain ⟨n, path⟩ := np
      rw [hg] at hx'
      subst hx'
      dsimp only at h1
      rw [readLoop_eq] at h1
      obtain ⟨y, hy, h1⟩ := obind_elim h1
      obtain ⟨vs, -, rfl⟩ := Option.map_eq_some_iff.1 hy
      dsimp only at h1
      obtain ⟨_, -, h1⟩ := obind_elim h1
      obtain ⟨_, -, h1⟩ := obind_elim h1
      simp only [Option.pure_def, Option.some.injEq, Prod.mk.injEq] at h1
      unfold readAccesses
      rw [if_pos, ← h1.2]
      · congr 1
        obtain ⟨-, hlen, hi⟩ := Sparse.getAt_some_iff p v n path hg
        apply List.ext_getElem
        · simp [hlen]
        · intro i hi1 hi2
          simp only [List.length_map, List.length_range] at hi1 hi2
          rw [List.getElem_map, List.getElem_map, List.getElem_range]
          have hi' := hi i hi2
          rw [List.getElem?_eq_getElem hi1] at hi'
          have hbu := hb.find (p.take i) (by rw [List.length_take]; omega) _ hi'.symm
          have hl : L - (p.take i).length = (L - i - 1) + 1 := by rw [List.length_take]; omega
          rw [hl] at hbu
          rw [hbu.2.1]
          simp [strOf, Data.str]
      · rw [← hq, ← Sparse.getAt_isSome_iff, hg]
        rfl

end PoL.Trace
