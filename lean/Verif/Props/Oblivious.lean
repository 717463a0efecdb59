import Verif.Props.Storage
import Verif.Props.Access

/-!
# The calls of the database and the sizes of its values tell nothing about the amounts (C120)
-/

set_option linter.unusedSectionVars false

namespace PoL.Props
open Spec Pol Verkle Sparse Trace

variable {G1 G2 GT : Type} [AddCommGroup G1] [Module Zr G1] [AddCommGroup G2] [Module Zr G2]
  [AddCommGroup GT] [Module Zr GT] [DecidableEq G1] [DecidableEq GT]

theorem byPath_fst {f : Str → Option (List ℕ)} {h₁ h₂ : List (Str × ℤ)} (h : h₁.map Prod.fst = h₂.map Prod.fst) :
    (byPath f h₁).map Prod.fst = (byPath f h₂).map Prod.fst := by
  have hfst : ∀ l : List (Str × ℤ), (byPath f l).map Prod.fst = (l.map Prod.fst).map fun id => (f id).getD [] := by
    intro l; simp [byPath]
  rw [hfst, hfst, h]

theorem touched_fst {h₁ h₂ : List (List ℕ × ℤ)} (h : h₁.map Prod.fst = h₂.map Prod.fst) (q : List ℕ) :
    touched h₁ q ↔ touched h₂ q := by
  have key : ∀ l : List (List ℕ × ℤ), touched l q ↔ ∃ p ∈ l.map Prod.fst, q <+: p := by
    intro l
    simp only [List.mem_map]
    exact ⟨fun ⟨e, he, hp⟩ => ⟨_, ⟨e, he, rfl⟩, hp⟩, fun ⟨_, ⟨e, he, rfl⟩, hp⟩ => ⟨e, he, hp⟩⟩
  rw [key, key, h]

theorem readAccesses_fst {h₁ h₂ : List (List ℕ × ℤ)} (h : h₁.map Prod.fst = h₂.map Prod.fst) (p : List ℕ) :
    readAccesses h₁ p = readAccesses h₂ p := by
  unfold readAccesses
  by_cases hp : touched h₁ p
  · rw [if_pos hp, if_pos ((touched_fst h p).1 hp)]
  · rw [if_neg hp, if_neg fun hc => hp ((touched_fst h p).2 hc)]

theorem writeAccesses_fst {h₁ h₂ : List (List ℕ × ℤ)} (h : h₁.map Prod.fst = h₂.map Prod.fst) (p : List ℕ) :
    writeAccesses h₁ p = writeAccesses h₂ p := by
  have e : readPassed h₁ = readPassed h₂ := by
    funext q
    unfold readPassed
    by_cases hq : touched h₁ q
    · rw [if_pos hq, if_pos ((touched_fst h q).1 hq)]
    · rw [if_neg hq, if_neg fun hc => hq ((touched_fst h q).2 hc)]
  unfold writeAccesses
  rw [e]

theorem historyAccesses_fst {h₁ h₂ : List (List ℕ × ℤ)} (h : h₁.map Prod.fst = h₂.map Prod.fst) :
    historyAccesses h₁ = historyAccesses h₂ := by
  have hl : h₁.length = h₂.length := by simpa using congrArg List.length h
  unfold historyAccesses
  rw [hl]
  refine congrArg (fun f => List.flatMap f (List.range h₂.length)) (funext fun i => ?_)
  rw [← List.getElem?_map, ← List.getElem?_map, h]
  exact writeAccesses_fst (by rw [List.map_take, List.map_take, h]) _

/-- C120, first part: `Set`s of the same identifiers in the same order make the same calls of the database, whatever the
amounts, the random values, the map orders and the parameters. -/
theorem C120_same_calls {E : Curve G1 G2 GT} (hE : E.Lawful) {env env' : Env} (henv : env.Lawful) (henv' : env'.Lawful)
    {α α' : Zr} {F L : ℕ} {ls₁ ls₁' ls₂ ls₂' : LiabilitySet G1 G2 GT} (h₁ : NewSet E α F L ls₁) (h₂ : NewSet E α' F L ls₂)
    (hp : ls₁.tree.id2Path = ls₂.tree.id2Path) (hist₁ hist₂ : List (Str × ℤ))
    (hids : ValidIds ls₁.tree.id2Path F L hist₁) (hsame : hist₁.map Prod.fst = hist₂.map Prod.fst)
    (hr₁ : ls₁.sets E env hist₁ = some ls₁') (hr₂ : ls₂.sets E env' hist₂ = some ls₂') :
    ∃ tr, Trace.sets E env ls₁ hist₁ [] = some (ls₁', tr) ∧ Trace.sets E env' ls₂ hist₂ [] = some (ls₂', tr) := by
  have hids₂ : ValidIds ls₂.tree.id2Path F L hist₂ := by
    intro e he
    have : e.1 ∈ hist₁.map Prod.fst := by rw [hsame]; exact List.mem_map.2 ⟨e, he, rfl⟩
    obtain ⟨e', he', hee⟩ := List.mem_map.1 this
    rw [← hp, ← hee]
    exact hids e' he'
  refine ⟨_, (C114_history_accesses hE henv h₁ hist₁ hids hr₁).1, ?_⟩
  rw [(C114_history_accesses hE henv' h₂ hist₂ hids₂ hr₂).1, hp, historyAccesses_fst (byPath_fst hsame)]

/-- C120, second part: afterwards `Get`, `ProveLiability` and `ProveTot` make the same calls too. -/
theorem C120_same_reads {E : Curve G1 G2 GT} (hE : E.Lawful) {env env' : Env} (henv : env.Lawful) (henv' : env'.Lawful)
    {α α' : Zr} {F L : ℕ} {ls₁ ls₁' ls₂ ls₂' : LiabilitySet G1 G2 GT} (h₁ : NewSet E α F L ls₁) (h₂ : NewSet E α' F L ls₂)
    (hp : ls₁.tree.id2Path = ls₂.tree.id2Path) (hist₁ hist₂ : List (Str × ℤ))
    (hids : ValidIds ls₁.tree.id2Path F L hist₁) (hsame : hist₁.map Prod.fst = hist₂.map Prod.fst)
    (hr₁ : ls₁.sets E env hist₁ = some ls₁') (hr₂ : ls₂.sets E env' hist₂ = some ls₂') :
    (∀ id p, ls₁.tree.id2Path id = some p → p.length = L → ∃ r₁ r₂ tr,
      Trace.get E env ls₁' id [] = some (r₁, tr) ∧ Trace.get E env' ls₂' id [] = some (r₂, tr)) ∧
    (∀ id p rnd₁ rnd₂ r₁ r₂, ls₁.tree.id2Path id = some p → p.length = L → ls₁'.proveLiability E env rnd₁ id = some r₁ →
      ls₂'.proveLiability E env' rnd₂ id = some r₂ → ∃ tr,
      Trace.proveLiability E env ls₁' rnd₁ id [] = some (r₁, tr) ∧ Trace.proveLiability E env' ls₂' rnd₂ id [] = some (r₂, tr)) ∧
    (∀ t₁ t₂, ls₁'.proveTot E = some t₁ → ls₂'.proveTot E = some t₂ → ∃ tr,
      Trace.proveTot E ls₁' [] = some (t₁, tr) ∧ Trace.proveTot E ls₂' [] = some (t₂, tr)) := by
  have hids₂ : ValidIds ls₂.tree.id2Path F L hist₂ := by
    intro e he
    have : e.1 ∈ hist₁.map Prod.fst := by rw [hsame]; exact List.mem_map.2 ⟨e, he, rfl⟩
    obtain ⟨e', he', hee⟩ := List.mem_map.1 this
    rw [← hp, ← hee]
    exact hids e' he'
  have hb : ∀ p, readAccesses (byPath ls₂.tree.id2Path hist₂) p = readAccesses (byPath ls₁.tree.id2Path hist₁) p :=
    fun p => by rw [← hp]; exact readAccesses_fst (byPath_fst hsame.symm) p
  refine ⟨fun id p hid hl => ?_, fun id p rnd₁ rnd₂ r₁ r₂ hid hl e₁ e₂ => ?_, fun t₁ t₂ e₁ e₂ => ?_⟩
  · obtain ⟨r₁, -, g₁⟩ := C114_get_accesses hE henv h₁ hist₁ hids hr₁ id p hid hl []
    obtain ⟨r₂, -, g₂⟩ := C114_get_accesses hE henv' h₂ hist₂ hids₂ hr₂ id p (by rw [← hp]; exact hid) hl []
    exact ⟨r₁, r₂, _, g₁, by rw [g₂, hb]⟩
  · refine ⟨_, C114_prove_accesses hE henv h₁ hist₁ hids hr₁ rnd₁ id p hid hl [] r₁ e₁, ?_⟩
    rw [C114_prove_accesses hE henv' h₂ hist₂ hids₂ hr₂ rnd₂ id p (by rw [← hp]; exact hid) hl [] r₂ e₂, hb]
  · exact ⟨_, C114_total_accesses E ls₁' [] t₁ e₁, C114_total_accesses E ls₂' [] t₂ e₂⟩

/-- C120, third part: on empty databases, after any number of the `Set`s, every key has a value of the same size in both
databases (if points are encoded in one size). -/
theorem C120_same_sizes {E : Curve G1 G2 GT} (hE : E.Lawful) {env env' : Env} (henv : env.Lawful) (henv' : env'.Lawful)
    {α α' : Zr} {F L : ℕ} {ls₁ ls₁' ls₂ ls₂' : LiabilitySet G1 G2 GT} (h₁ : NewSet E α F L ls₁) (h₂ : NewSet E α' F L ls₂)
    (h0₁ : ∀ k, ls₁.s.db k = []) (h0₂ : ∀ k, ls₂.s.db k = []) (hp : ls₁.tree.id2Path = ls₂.tree.id2Path)
    (hist₁ hist₂ : List (Str × ℤ)) (hids : ValidIds ls₁.tree.id2Path F L hist₁)
    (hsame : hist₁.map Prod.fst = hist₂.map Prod.fst) (hg : ∀ p q, (E.g1Bytes p).length = (E.g1Bytes q).length) (n : ℕ)
    (hr₁ : ls₁.sets E env (hist₁.take n) = some ls₁') (hr₂ : ls₂.sets E env' (hist₂.take n) = some ls₂') (k : Str) :
    (ls₁'.s.db k).length = (ls₂'.s.db k).length := by
  have ht : (hist₁.take n).map Prod.fst = (hist₂.take n).map Prod.fst := by rw [List.map_take, List.map_take, hsame]
  refine C117_shape_only hE henv henv' h₁ h₂ h0₁ h0₂ hp _ _ (fun e he => hids e (List.mem_of_mem_take he)) ?_ hr₁ hr₂
    (fun id => by rw [ht]) hg k
  intro e he
  have : e.1 ∈ (hist₁.take n).map Prod.fst := by rw [ht]; exact List.mem_map.2 ⟨e, he, rfl⟩
  obtain ⟨e', he', hee⟩ := List.mem_map.1 this
  rw [← hp, ← hee]
  exact hids e' (List.mem_of_mem_take he')

/-! ## The hypotheses can be met -/

/-- `toyHist` and the same identifiers with other amounts. -/
example : ∃ ls ls₁ ls₂ : LiabilitySet Zr Zr Zr, ∃ tr, NewSet toyCurve 2 3 3 ls ∧
    Trace.sets toyCurve toyEnv ls toyHist [] = some (ls₁, tr) ∧
    Trace.sets toyCurve toyEnv ls (toyHist.map fun e => (e.1, e.2 + 1)) [] = some (ls₂, tr) := by
  obtain ⟨pp, hpp⟩ := toy_fits
  obtain ⟨ls, hls⟩ : ∃ ls : LiabilitySet Zr Zr Zr, ls = ⟨toyTree, pp, [], ⟨fun _ => [], 0⟩⟩ := ⟨_, rfl⟩
  have h : NewSet toyCurve 2 3 3 ls := by rw [hls]; exact ⟨toyTree_new, hpp, rfl⟩
  have ht : ls.tree = toyTree := by rw [hls]
  have hids : ValidIds ls.tree.id2Path 3 3 toyHist := by rw [ht]; exact toyHist_valid
  have hids₂ : ValidIds ls.tree.id2Path 3 3 (toyHist.map fun e => (e.1, e.2 + 1)) := by
    intro e he
    obtain ⟨e', he', rfl⟩ := List.mem_map.1 he
    exact hids e' he'
  obtain ⟨ls₁, hs₁⟩ := C43_sets_return toyCurve_lawful toyEnv_lawful h toyHist hids (by decide)
  obtain ⟨ls₂, hs₂⟩ := C43_sets_return toyCurve_lawful toyEnv_lawful h _ hids₂ (by decide)
  obtain ⟨tr, e₁, e₂⟩ := C120_same_calls toyCurve_lawful toyEnv_lawful toyEnv_lawful h h rfl _ _ hids (by decide) hs₁ hs₂
  exact ⟨ls, ls₁, ls₂, tr, h, e₁, e₂⟩

end PoL.Props
