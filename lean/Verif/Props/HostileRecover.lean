import Verif.Props.Hostile
import Verif.Proofs.RecoverSet

/-!
# A database that answers anything and fails at will, and a caller who goes on (C126)
-/

set_option linter.unusedSectionVars false

namespace PoL.Props
open Spec Pol Verkle Sparse

section Sparse

variable {D σ : Type}

/-- Whatever the callback does, panics included, the leaf that is written has the new data. -/
theorem find_putAtR_self (fanOut : ℕ) (upd : UpdateR D σ) (data : Option D) : ∀ (path : List ℕ) (ps : Str) (v : Sparse.Vertex D) (s : σ),
    ∃ u, find path (putAtR fanOut upd data path ps v s).vertex = some u ∧ u.data = data
  | [], ps, v, s => ⟨_, rfl, rfl⟩
  | p :: rest, ps, v, s => by
    obtain ⟨u, h1, h2⟩ := find_putAtR_self fanOut upd data rest (childKey ps p) ((descGet v.desc p).getD (.mk (childKey ps p) none [])) s
    refine ⟨u, ?_, h2⟩
    have hd : (putAtR fanOut upd data (p :: rest) ps v s).vertex.desc = descSet v.desc p (putAtR fanOut upd data rest (childKey ps p)
        ((descGet v.desc p).getD (.mk (childKey ps p) none [])) s).vertex := by
      rw [putAtR, roundR]
      split
      · rw [assignR]
        split
        · rfl
        · split <;> rfl
      · rfl
    rw [find_cons, hd, descGet_descSet, if_pos rfl]
    exact h1

/-- Whatever the callback does, panics included, other leaves stay. -/
theorem find_putAtR_other (fanOut : ℕ) (upd : UpdateR D σ) (data : Option D) : ∀ (path q : List ℕ) (ps : Str) (v : Sparse.Vertex D) (s : σ),
    q.length = path.length → q ≠ path → find q (putAtR fanOut upd data path ps v s).vertex = find q v
  | [], [], ps, v, s, _, hne => (hne rfl).elim
  | p :: rest, q :: qs, ps, v, s, hl, hne => by
    have hd : (putAtR fanOut upd data (p :: rest) ps v s).vertex.desc = descSet v.desc p (putAtR fanOut upd data rest (childKey ps p)
        ((descGet v.desc p).getD (.mk (childKey ps p) none [])) s).vertex := by
      rw [putAtR, roundR]
      split
      · rw [assignR]
        split
        · rfl
        · split <;> rfl
      · rfl
    rw [find_cons, find_cons, hd, descGet_descSet]
    by_cases hpq : q = p
    · subst hpq
      rw [if_pos rfl]
      have hqs : qs ≠ rest := fun e => hne (by rw [e])
      have ih := find_putAtR_other fanOut upd data rest qs (childKey ps q) ((descGet v.desc q).getD (.mk (childKey ps q) none [])) s
        (by simpa using hl) hqs
      have hq0 : qs ≠ [] := by
        rintro rfl
        refine hqs ?_
        rw [List.length_cons, List.length_cons] at hl
        exact (List.length_eq_zero_iff.1 (by simpa using hl.symm)).symm
      refine Eq.trans ih ?_
      cases descGet v.desc q with
      | none => exact find_fresh _ _ hq0
      | some u => rfl
    · rw [if_neg (Ne.symm hpq)]

end Sparse

variable {G1 G2 GT : Type} [AddCommGroup G1] [Module Zr G1] [AddCommGroup G2] [Module Zr G2]
  [AddCommGroup GT] [Module Zr GT] [DecidableEq G1] [DecidableEq GT]

/-- The attempts that are not refused at once: those with a path and an amount that is not negative. -/
def taken (id2Path : Str → Option (List ℕ)) (hist : List (Str × ℤ)) : List (Str × ℤ) :=
  hist.filter fun e => (id2Path e.1).isSome ∧ 0 ≤ e.2

/-- The data found at a path from the root, with the vertex. -/
def leafData (t : Verkle.Tree G1 G2 GT) (p : List ℕ) : Option (Option Data) := (t.root.bind (find p)).map Sparse.Vertex.data

theorem setHR_leaf (E : Curve G1 G2 GT) (env : Env) (d : Hostile) (ls : LiabilitySet G1 G2 GT) (e : Str × ℤ) (n L : ℕ)
    (hL : 1 ≤ L) (hlen : ∀ q, ls.tree.id2Path e.1 = some q → q.length = L) (p : List ℕ) (hp : p.length = L) :
    (ls.setHR E env d e.1 e.2 n).2.1.tree.id2Path = ls.tree.id2Path ∧
    leafData (ls.setHR E env d e.1 e.2 n).2.1.tree p =
      if ls.tree.id2Path e.1 = some p ∧ 0 ≤ e.2 then some (some (.amount e.2)) else leafData ls.tree p := by
  unfold LiabilitySet.setHR
  split
  · rename_i hneg
    rw [if_neg (by omega)]
    exact ⟨rfl, rfl⟩
  · rename_i hneg
    dsimp only
    unfold Verkle.Tree.putHR
    cases hq : ls.tree.id2Path e.1 with
    | none => simp
    | some q =>
      dsimp only
      refine ⟨rfl, ?_⟩
      have hql := hlen q hq
      by_cases hqp : q = p
      · subst hqp
        rw [if_pos ⟨rfl, by omega⟩]
        obtain ⟨u, h1, h2⟩ := find_putAtR_self ls.tree.fanOut (updateHostileR E ls.tree.PP env d) (some (.amount e.2)) q []
          (ls.tree.root.getD (.mk [] none [])) (ls.s.tick, n)
        unfold leafData
        dsimp only
        rw [Option.bind_some, h1, Option.map_some, h2]
      · rw [if_neg (by rintro ⟨h, -⟩; exact hqp (Option.some.inj h))]
        unfold leafData
        dsimp only
        rw [Option.bind_some, find_putAtR_other _ _ _ _ _ _ _ _ (by omega) (Ne.symm hqp)]
        cases ls.tree.root with
        | none => rw [Option.getD_none, find_fresh _ _ (by rintro rfl; simp at hp; omega)]; rfl
        | some v => rfl

theorem attemptsH_leaf (E : Curve G1 G2 GT) (env : Env) (d : Hostile) {L : ℕ} (hL : 1 ≤ L) (p : List ℕ) (hp : p.length = L) (id : Str) :
    ∀ (hist : List (Str × ℤ)) (ls : LiabilitySet G1 G2 GT) (n : ℕ), ls.tree.id2Path id = some p →
      (∀ e ∈ hist, ∀ q, ls.tree.id2Path e.1 = some q → q.length = L) →
      (∀ e ∈ hist, ls.tree.id2Path e.1 = ls.tree.id2Path id → e.1 = id) →
      (ls.attemptsH E env d n hist).1.tree.id2Path = ls.tree.id2Path ∧
      leafData (ls.attemptsH E env d n hist).1.tree p =
        match lastPut (taken ls.tree.id2Path hist) id with
        | some a => some (some (.amount a))
        | none => leafData ls.tree p := by
  intro hist
  induction hist using List.reverseRecOn with
  | nil => intro ls n _ _ _; exact ⟨rfl, rfl⟩
  | append_singleton hist e ih =>
    intro ls n hid hlen hinj
    obtain ⟨ih1, ih2⟩ := ih ls n hid (fun e he => hlen e (by simp [he])) (fun e he => hinj e (by simp [he]))
    have hstep : ls.attemptsH E env d n (hist ++ [e]) = ((ls.attemptsH E env d n hist).1.setHR E env d e.1 e.2
        (ls.attemptsH E env d n hist).2).2 := by
      unfold LiabilitySet.attemptsH
      rw [List.foldl_append]
      rfl
    obtain ⟨s1, s2⟩ := setHR_leaf E env d (ls.attemptsH E env d n hist).1 e (ls.attemptsH E env d n hist).2 L hL
      (fun q hq => hlen e (by simp) q (by rw [← ih1]; exact hq)) p hp
    rw [hstep]
    refine ⟨s1.trans ih1, ?_⟩
    rw [s2, ih1, ih2]
    unfold taken
    rw [List.filter_append]
    by_cases h : (ls.tree.id2Path e.1).isSome ∧ 0 ≤ e.2
    · have hf : [e].filter (fun e => decide ((ls.tree.id2Path e.1).isSome ∧ 0 ≤ e.2)) = [e] := by simp [h]
      rw [hf, lastPut_concat]
      by_cases he : e.1 = id
      · rw [if_pos ⟨by rw [he, hid], h.2⟩, if_pos he]
      · rw [if_neg (by rintro ⟨h1, -⟩; exact he (hinj e (by simp) (by rw [h1, hid]))), if_neg he]
    · have hf : [e].filter (fun e => decide ((ls.tree.id2Path e.1).isSome ∧ 0 ≤ e.2)) = [] := by simp [h]
      rw [hf, List.append_nil, if_neg (by rintro ⟨h1, h2⟩; exact h ⟨by rw [h1]; rfl, h2⟩)]

theorem putAtR_reports (E : Curve G1 G2 GT) (PP : PP G1 G2 GT) (env : Env) (d : Hostile) (fanOut : ℕ) (data : Option Data) :
    ∀ (path : List ℕ) (ps : Str) (v : Sparse.Vertex Data) (s : ℕ × ℕ),
      (putAtR fanOut (updateHostileR E PP env d) data path ps v s).ok = true →
      (∀ i < path.length, d.fails (s.2 + i) = false) ∧
      (putAtR fanOut (updateHostileR E PP env d) data path ps v s).state.2 = s.2 + path.length
  | [], _, _, s, _ => ⟨fun i hi => absurd hi (by simp), rfl⟩
  | p :: rest, ps, v, s, hok => by
    have ih := putAtR_reports E PP env d fanOut data rest (childKey ps p) ((descGet v.desc p).getD (.mk (childKey ps p) none [])) s
    rw [putAtR] at hok ⊢
    generalize putAtR fanOut (updateHostileR E PP env d) data rest (childKey ps p)
      ((descGet v.desc p).getD (.mk (childKey ps p) none [])) s = r at hok ih ⊢
    unfold roundR at hok ⊢
    by_cases hr : r.ok = true
    · obtain ⟨ih1, ih2⟩ := ih hr
      rw [if_pos hr] at hok ⊢
      unfold assignR at hok ⊢
      cases hraw : rawData (descSet v.desc p r.vertex) fanOut with
      | none => rw [hraw] at hok; exact nomatch hok
      | some raw =>
        rw [hraw] at hok
        dsimp only at hok ⊢
        have hs : (updateHostileR E PP env d v.key v.data raw rest.isEmpty p r.state).2.2 = r.state.2 + 1 := rfl
        have hf : (updateHostileR E PP env d v.key v.data raw rest.isEmpty p r.state).1 ≠ none → d.fails r.state.2 = false := by
          intro h
          unfold updateHostileR at h
          dsimp only at h
          cases hd : d.fails r.state.2 with
          | false => rfl
          | true => rw [hd] at h; exact absurd rfl h
        generalize updateHostileR E PP env d v.key v.data raw rest.isEmpty p r.state = u at hok hs hf ⊢
        obtain ⟨u1, u2⟩ := u
        cases u1 with
        | none => exact nomatch hok
        | some x =>
          dsimp only at hs hf ⊢
          have hf := hf (by simp)
          refine ⟨fun i hi => ?_, by rw [hs, ih2, List.length_cons]; omega⟩
          rw [List.length_cons] at hi
          by_cases hi' : i < rest.length
          · exact ih1 i hi'
          · rw [show s.2 + i = r.state.2 by omega]
            exact hf
    · rw [if_neg hr] at hok
      exact nomatch hok

/-- C126: a database that fails is not passed over.  A `Set` that returns made as many callbacks as the path has entries, and the database
failed in none of them. -/
theorem C126_failure_panics (E : Curve G1 G2 GT) (env : Env) (d : Hostile) (ls : LiabilitySet G1 G2 GT) (id : Str) (a : ℤ) (n : ℕ)
    (hok : (ls.setHR E env d id a n).1 = true) :
    0 ≤ a ∧ ∃ p, ls.tree.id2Path id = some p ∧ (∀ i < p.length, d.fails (n + i) = false) ∧
      (ls.setHR E env d id a n).2.2 = n + p.length := by
  unfold LiabilitySet.setHR at hok ⊢
  split at hok
  · exact nomatch hok
  · rename_i hneg
    refine ⟨by omega, ?_⟩
    rw [if_neg hneg]
    dsimp only at hok ⊢
    unfold Verkle.Tree.putHR at hok ⊢
    cases hp : ls.tree.id2Path id with
    | none => rw [hp] at hok; exact nomatch hok
    | some p =>
      rw [hp] at hok
      dsimp only at hok ⊢
      obtain ⟨h1, h2⟩ := putAtR_reports E ls.tree.PP env d ls.tree.fanOut _ p _ _ _ hok
      exact ⟨p, rfl, h1, h2⟩

/-- **C126.** Whatever a database answers, and on whichever calls it panics, during any attempts to `Set`, recovered from if they
panic, and whatever it answers then: `Get` gives the amount of the latest attempt for the identifier, `false` if there was none, or
panics.  Attempts count if they were not refused for want of a path or for a negative amount. -/
theorem C126_get_latest_attempt (E : Curve G1 G2 GT) (env : Env) (ls : LiabilitySet G1 G2 GT) (h0 : ls.tree.root = none) {L : ℕ} (hL : 1 ≤ L)
    (hist : List (Str × ℤ)) (hlen : ∀ e ∈ hist, ∀ q, ls.tree.id2Path e.1 = some q → q.length = L) (d : Hostile) (n : ℕ) (db : Db)
    (id : Str) (p : List ℕ) (hp : ls.tree.id2Path id = some p) (hpL : p.length = L)
    (hinj : ∀ e ∈ hist, ls.tree.id2Path e.1 = ls.tree.id2Path id → e.1 = id) :
    ((ls.attemptsH E env d n hist).1.withDb db).get E env id = none ∨
    ((ls.attemptsH E env d n hist).1.withDb db).get E env id = some (lastPut (taken ls.tree.id2Path hist) id) := by
  obtain ⟨h1, h2⟩ := attemptsH_leaf E env d hL p hpL id hist ls n hp hlen hinj
  generalize (ls.attemptsH E env d n hist).1 = ls' at h1 h2
  have hl0 : leafData ls.tree p = none := by unfold leafData; rw [h0]; rfl
  have hg : ∀ r, (ls'.tree.sparse E env).get id = some r → r = none ∧ leafData ls'.tree p = none ∨
      ∃ x vs, r = some (x, vs) ∧ leafData ls'.tree p = some x := by
    intro r hr
    unfold Sparse.Tree.get Verkle.Tree.sparse at hr
    dsimp only at hr
    rw [h1, hp] at hr
    unfold leafData
    cases hroot : ls'.tree.root with
    | none =>
      rw [hroot] at hr
      obtain rfl := Option.some.inj hr
      exact Or.inl ⟨rfl, rfl⟩
    | some v =>
      rw [hroot] at hr
      obtain rfl := Option.some.inj hr
      rw [Option.bind_some]
      cases hf : find p v with
      | none => exact Or.inl ⟨getAt_none p v hf, rfl⟩
      | some u =>
        obtain ⟨vs, hvs, -⟩ := getAt_eq p v u hf
        exact Or.inr ⟨_, _, hvs, rfl⟩
  unfold LiabilitySet.get LiabilitySet.withDb
  dsimp only
  unfold Verkle.Tree.get
  cases hr : (ls'.tree.sparse E env).get id with
  | none => exact Or.inl rfl
  | some r =>
    rcases hg r hr with ⟨rfl, hn⟩ | ⟨x, vs, rfl, hx⟩
    · refine Or.inr ?_
      rw [hn, hl0] at h2
      cases hlast : lastPut (taken ls.tree.id2Path hist) id with
      | none => rfl
      | some a => rw [hlast] at h2; exact nomatch h2
    · rw [hx, hl0] at h2
      cases hlast : lastPut (taken ls.tree.id2Path hist) id with
      | none => rw [hlast] at h2; exact nomatch h2
      | some a =>
        rw [hlast] at h2
        obtain rfl := Option.some.inj h2
        simp only [Option.bind_eq_bind, Option.bind_some]
        cases (vs.mapM fun u => u.data.bind fun x => x.str.bind fun key => Verkle.Vertex.fromBytes E (db key)) with
        | none => exact Or.inl rfl
        | some ws => exact Or.inr rfl

theorem updateHR_iff (E : Curve G1 G2 GT) (PP : PP G1 G2 GT) (env : Env) (d : Hostile) (hd : ∀ i, d.fails i = false) (key : Str)
    (node : Option Data) (ds : List (Option Data)) (l : Bool) (i : ℕ) (s : ℕ × ℕ) (r : Option Data) (s' : ℕ × ℕ) :
    updateHostileR E PP env d key node ds l i s = (some r, s') ↔ updateHostile E PP env d.answers key node ds l i s = some (r, s') := by
  have h := fun r' t => updateR_iff E PP env key node ds l i ⟨d.answers s.2, s.1⟩ r' t
  unfold updateHostileR updateHostile
  dsimp only
  rw [hd, if_neg (by simp)]
  cases hu : updateInnerVertex E PP env key node ds l i ⟨d.answers s.2, s.1⟩ with
  | none =>
    rcases hv : updateInnerVertexR E PP env key node ds l i ⟨d.answers s.2, s.1⟩ with ⟨_ | x, t⟩
    · simp
    · have := (h x t).1 hv
      rw [hu] at this
      exact nomatch this
  | some x =>
    rw [(h x.1 x.2).2 hu]
    simp

/-- If no `Put` of the database panics, the calls that return are those of C124, and leave what these leave. -/
theorem C126_completed_calls (E : Curve G1 G2 GT) (env : Env) (d : Hostile) (hd : ∀ i, d.fails i = false) (ls ls' : LiabilitySet G1 G2 GT)
    (id : Str) (a : ℤ) (n n' : ℕ) :
    ls.setHR E env d id a n = (true, ls', n') ↔ ls.setH E env d.answers id a n = some (ls', n') := by
  unfold LiabilitySet.setHR LiabilitySet.setH Verkle.Tree.putHR Verkle.Tree.putH
  by_cases hn : a < 0
  · rw [if_pos hn, if_pos hn]; simp
  · rw [if_neg hn, if_neg hn]
    simp only [Option.bind_eq_bind, Option.pure_def]
    cases hp : ls.tree.id2Path id with
    | none => simp
    | some path =>
      simp only [Option.bind_some]
      rcases hr : putAtR ls.tree.fanOut (updateHostileR E ls.tree.PP env d) (some (.amount a)) path []
        (ls.tree.root.getD (.mk [] none [])) (ls.s.tick, n) with ⟨ok, v, s⟩
      cases ok with
      | true =>
        rw [(putAtR_iff (updateHR_iff E ls.tree.PP env d hd) path [] _ v _ s).1 hr]
        simp
      | false =>
        have : putAt ls.tree.fanOut (updateHostile E ls.tree.PP env d.answers) (some (.amount a)) path []
            (ls.tree.root.getD (.mk [] none [])) (ls.s.tick, n) = none := by
          cases hc : putAt ls.tree.fanOut (updateHostile E ls.tree.PP env d.answers) (some (.amount a)) path []
            (ls.tree.root.getD (.mk [] none [])) (ls.s.tick, n) with
          | none => rfl
          | some x =>
            obtain ⟨x1, x2⟩ := x
            rw [← putAtR_iff (updateHR_iff E ls.tree.PP env d hd), hr] at hc
            cases hc
        rw [this]
        simp

theorem attemptsH_of_setsH (E : Curve G1 G2 GT) (env : Env) (d : Hostile) (hd : ∀ i, d.fails i = false) : ∀ (hist : List (Str × ℤ))
    (ls : LiabilitySet G1 G2 GT) (n : ℕ) (r : LiabilitySet G1 G2 GT × ℕ), ls.setsH E env d.answers n hist = some r →
      ls.attemptsH E env d n hist = r
  | [], ls, n, r, h => Option.some.inj h
  | e :: hist, ls, n, r, h => by
    unfold LiabilitySet.setsH at h
    rw [List.foldlM_cons, Option.bind_eq_bind, Option.bind_eq_some_iff] at h
    obtain ⟨⟨l1, n1⟩, h1, h2⟩ := h
    have := attemptsH_of_setsH E env d hd hist l1 n1 r h2
    unfold LiabilitySet.attemptsH
    rw [List.foldl_cons]
    rw [(C126_completed_calls E env d hd ls l1 e.1 e.2 n n1).2 h1]
    exact this

section Examples

/-- Four attempts on the toy set over a database that answers as an honest one would; the second alternative holds: `Get` gives 30. -/
example : ∃ (ls ls₁ : LiabilitySet Zr Zr Zr) (d : Hostile), ls.tree.root = none ∧
    (∀ e ∈ toyHist, ∀ q, ls.tree.id2Path e.1 = some q → q.length = 3) ∧ ls.sets toyCurve toyEnv toyHist = some ls₁ ∧
    ((ls.attemptsH toyCurve toyEnv d 0 toyHist).1.withDb ls₁.s.db).get toyCurve toyEnv ['0', '1', '2'] = some (some 30) := by
  obtain ⟨ls, h, ht⟩ := toy_set
  have hids : ValidIds ls.tree.id2Path 3 3 toyHist := by rw [ht]; exact toyHist_valid
  obtain ⟨ls₁, hs⟩ := C43_sets_return toyCurve_lawful toyEnv_lawful h toyHist hids (by decide)
  obtain ⟨l, hl⟩ := C124_honest_database toyHist ls ls₁ hs ls rfl rfl
  obtain ⟨ls₀, h₀, htree⟩ := hl _ 0 (answersFrom_getD l)
  have ha := attemptsH_of_setsH toyCurve toyEnv ⟨fun i => l.getD i fun _ => [], fun _ => false⟩ (fun _ => rfl) toyHist ls 0 _ h₀
  refine ⟨ls, ls₁, ⟨fun i => l.getD i fun _ => [], fun _ => false⟩, h.tree.root, fun e he q hq => ?_, hs, ?_⟩
  · obtain ⟨q', hq', hl', -⟩ := hids e he
    rw [hq'] at hq
    obtain rfl := Option.some.inj hq
    exact hl'
  · rw [ha]
    have hG := C43_get_latest toyCurve_lawful toyEnv_lawful h toyHist hids hs ['0', '1', '2'] [0, 1, 2] (by rw [ht]; rfl) rfl (by rw [ht]; decide)
    unfold LiabilitySet.get LiabilitySet.withDb at *
    dsimp only
    rw [htree]
    exact hG

/-- A `Set` over such a database that returns, after three callbacks. -/
example : ∃ (ls : LiabilitySet Zr Zr Zr) (d : Hostile), (ls.setHR toyCurve toyEnv d ['0', '1', '2'] 10 0).1 = true ∧
    (ls.setHR toyCurve toyEnv d ['0', '1', '2'] 10 0).2.2 = 3 := by
  obtain ⟨ls, h, ht⟩ := toy_set
  have hids : ValidIds ls.tree.id2Path 3 3 [(['0', '1', '2'], 10)] := by
    rw [ht]
    exact fun e he => toyHist_valid e (by simp [toyHist] at he ⊢; exact Or.inl he)
  obtain ⟨ls₁, hs⟩ := C43_sets_return toyCurve_lawful toyEnv_lawful h [(['0', '1', '2'], 10)] hids (by decide)
  obtain ⟨l, hl⟩ := C124_honest_database _ ls ls₁ hs ls rfl rfl
  obtain ⟨ls₀, h₀, htree⟩ := hl _ 0 (answersFrom_getD l)
  unfold LiabilitySet.setsH at h₀
  rw [List.foldlM_cons, Option.bind_eq_bind, Option.bind_eq_some_iff] at h₀
  obtain ⟨⟨l1, n1⟩, h1, -⟩ := h₀
  have hok := (C126_completed_calls toyCurve toyEnv ⟨fun i => l.getD i fun _ => [], fun _ => false⟩ (fun _ => rfl) ls l1 _ _ 0 n1).2 h1
  have hok1 := congrArg Prod.fst hok
  obtain ⟨-, p, hp, -, hn⟩ := C126_failure_panics _ _ _ _ _ _ _ hok1
  have hp' : ls.tree.id2Path ['0', '1', '2'] = some [0, 1, 2] := by rw [ht]; rfl
  obtain rfl := Option.some.inj (hp.symm.trans hp')
  exact ⟨ls, _, hok1, hn⟩

end Examples

end PoL.Props
