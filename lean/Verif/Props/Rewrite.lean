import Verif.Proofs.Rewrite
import Verif.Proofs.PolToy
import Verif.Props.Pol
import Verif.Props.SameRoot

/-!
# C100: writes that leave every amount as it was leave the set as it was
-/

set_option linter.unusedSectionVars false

namespace PoL.Props
open Spec Verkle Pol Polynomial

variable {G1 G2 GT : Type} [AddCommGroup G1] [Module Zr G1] [AddCommGroup G2] [Module Zr G2]
  [AddCommGroup GT] [Module Zr GT] [DecidableEq G1] [DecidableEq GT]

/-- C100, as far as it holds: after writes that leave every amount as it was, each vertex holds the same values, the same sum
and the same blinding factor; above the layer over the leaves also the same `V`. Missing: `V` over the leaves and with it `W`
above, which change (`C100_violated`); over the leaves `V` changes by the difference of the deviations. -/
theorem C100_contents_kept_partial {E : Curve G1 G2 GT} (hE : E.Lawful) {env : Env} (henv : env.Lawful) {α : Zr} {F L : ℕ}
    {t t₁ t₂ : Tree G1 G2 GT} (ht : NewTree E α F t) (hist tail : List (Str × ℤ)) {s s₁ s₂ : State}
    (hids : ValidIds t.id2Path F L (hist ++ tail)) (h₁ : t.puts E env hist s = some (t₁, s₁))
    (h₂ : t₁.puts E env tail s₁ = some (t₂, s₂))
    (hs : SameAmounts (byPath t.id2Path hist) (byPath t.id2Path (hist ++ tail))) (q : List ℕ) (hqL : q.length < L)
    (hq : touched (byPath t.id2Path hist) q) :
    ∃ x₁ x₂, Vertex.fromBytes E (s₁.db (keyOf q)) = some x₁ ∧ Vertex.fromBytes E (s₂.db (keyOf q)) = some x₂ ∧
      x₂.values = x₁.values ∧ x₂.sum = x₁.sum ∧ x₂.blindingFactor = x₁.blindingFactor ∧
      (q.length + 1 < L → x₂.V = x₁.V) ∧
      (q.length + 1 = L → x₂.V = x₁.V + ((deviation F (byPath t.id2Path (hist ++ tail)) q).eval α
        - (deviation F (byPath t.id2Path hist) q).eval α) • E.genG1) := by
  obtain ⟨bf, hl, hi⟩ := contents_vertices hE henv ht hids h₁ h₂ hs q hqL hq
  rcases (show q.length + 1 ≤ L from hqL).lt_or_eq with h | h
  · obtain ⟨e₁, e₂⟩ := hi h
    obtain ⟨f1, f2, f3, f4⟩ := innerVertex_fields E α F bf (belowVals (byPath t.id2Path hist) q)
      (belowDigs E s₁.db (byPath t.id2Path hist) q) (belowDigs E s₂.db (byPath t.id2Path (hist ++ tail)) q)
    exact ⟨_, _, load_fromBytes e₁, load_fromBytes e₂, f1, f2, f3, fun _ => f4, fun hc => by omega⟩
  · obtain ⟨e₁, e₂⟩ := hl h
    generalize hd₁ : (deviation F (byPath t.id2Path hist) q).eval α = d₁ at *
    generalize hd₂ : (deviation F (byPath t.id2Path (hist ++ tail)) q).eval α = d₂ at *
    generalize hc : com E α (valVec F (histVals (byPath t.id2Path hist) q) bf) = c at *
    obtain ⟨f1, f2, f3, f4, f5⟩ := leafVertex_fields F bf (histVals (byPath t.id2Path hist) q)
      (c + d₁ • E.genG1) (c + d₂ • E.genG1)
    exact ⟨_, _, load_fromBytes e₁, load_fromBytes e₂, f1, f2, f3, fun hc => by omega,
      fun _ => f4.trans ((add_sub_smul c E.genG1 d₂ d₁).trans (congrArg (· + _) f5.symm))⟩

/-- C100: every vertex is stored as before exactly when the deviations over the leaves agree at the trapdoor. -/
theorem C100_unchanged_iff {E : Curve G1 G2 GT} (hE : E.Lawful) (hgen : E.genG1 ≠ 0) {env : Env} (henv : env.Lawful) {α : Zr}
    {F L : ℕ} {t t₁ t₂ : Tree G1 G2 GT} (ht : NewTree E α F t) (hist tail : List (Str × ℤ)) {s s₁ s₂ : State}
    (hids : ValidIds t.id2Path F L (hist ++ tail)) (h₁ : t.puts E env hist s = some (t₁, s₁))
    (h₂ : t₁.puts E env tail s₁ = some (t₂, s₂))
    (hs : SameAmounts (byPath t.id2Path hist) (byPath t.id2Path (hist ++ tail))) :
    (∀ q, q.length < L → touched (byPath t.id2Path hist) q →
        ∃ x, Vertex.fromBytes E (s₁.db (keyOf q)) = some x ∧ Vertex.fromBytes E (s₂.db (keyOf q)) = some x) ↔
      ∀ q, q.length + 1 = L → touched (byPath t.id2Path hist) q →
        (deviation F (byPath t.id2Path (hist ++ tail)) q).eval α = (deviation F (byPath t.id2Path hist) q).eval α := by
  constructor
  · intro hall q hq htou
    obtain ⟨x₁, x₂, hx₁, hx₂, -, -, -, -, hV⟩ :=
      C100_contents_kept_partial hE henv ht hist tail hids h₁ h₂ hs q (by omega) htou
    obtain ⟨x, hy₁, hy₂⟩ := hall q (by omega) htou
    rw [hx₁, Option.some.injEq] at hy₁
    rw [hx₂, Option.some.injEq] at hy₂
    have := hV hq
    rw [hy₁, hy₂, left_eq_add, smul_eq_zero, sub_eq_zero] at this
    exact this.resolve_right hgen
  · intro hdev q hq htou
    obtain ⟨x, hx₁, hx₂⟩ := contents_up hE henv ht hids h₁ h₂ hs hdev (L - (q.length + 1)) q (by omega) htou
    exact ⟨x, load_fromBytes hx₁, load_fromBytes hx₂⟩

/-- C100, one write of the amount that is there already: nothing changes exactly when the trapdoor is zero or the sum below
the vertex over the leaf is the amount whose index is the number of clients below that vertex. -/
theorem C100_rewrite_iff {E : Curve G1 G2 GT} (hE : E.Lawful) (hgen : E.genG1 ≠ 0) {env : Env} (henv : env.Lawful) {α : Zr}
    {F L : ℕ} {t t₁ t₂ : Tree G1 G2 GT} (ht : NewTree E α F t) (hist : List (Str × ℤ)) (id : Str) (a : ℤ) {s s₁ s₂ : State}
    (hids : ValidIds t.id2Path F L (hist ++ [(id, a)])) (h₁ : t.puts E env hist s = some (t₁, s₁))
    (h₂ : t₁.put E env id a s₁ = some (t₂, s₂)) (q : List ℕ) (j : ℕ) (hp : t.id2Path id = some (q ++ [j]))
    (ha : lastPut (byPath t.id2Path hist) (q ++ [j]) = some a) :
    (∀ r, r.length < L → touched (byPath t.id2Path hist) r →
        ∃ x, Vertex.fromBytes E (s₁.db (keyOf r)) = some x ∧ Vertex.fromBytes E (s₂.db (keyOf r)) = some x) ↔
      α = 0 ∨ ((misplaced (byPath t.id2Path hist) q : ℤ) : Zr) = 0 := by
  have hb : byPath t.id2Path (hist ++ [(id, a)]) = byPath t.id2Path hist ++ [(q ++ [j], a)] := by
    simp [byPath, hp]
  have hs : SameAmounts (byPath t.id2Path hist) (byPath t.id2Path (hist ++ [(id, a)])) := by
    rw [hb]; exact sameContents_again ha
  have hmem : q ++ [j] ∈ (byPath t.id2Path hist).map Prod.fst := by
    rw [← lastPut_isSome, ha]; rfl
  have hlast : latest (byPath t.id2Path hist) (q ++ [j]) = a := by unfold latest; rw [ha]; rfl
  have h₂' : t₁.puts E env [(id, a)] s₁ = some (t₂, s₂) := by
    have := vputs_concat E env t₁ [] (id, a) s₁
    rw [List.nil_append, vputs_nil, Option.bind_some] at this
    rw [this, h₂]
  have hlen : q.length + 1 = L := by
    obtain ⟨p, hp', hl, -⟩ := hids (id, a) (by simp)
    rw [hp, Option.some.injEq] at hp'
    rw [← hl, ← hp']; simp
  have htou : touched (byPath t.id2Path hist) q := by
    obtain ⟨e, he, hee⟩ := List.mem_map.1 hmem
    exact ⟨e, he, hee ▸ List.prefix_append _ _⟩
  rw [C100_unchanged_iff hE hgen henv ht hist [(id, a)] hids h₁ h₂' hs, hb]
  have key : (deviation F (byPath t.id2Path hist ++ [(q ++ [j], a)]) q).eval α = (deviation F (byPath t.id2Path hist) q).eval α ↔
      α = 0 ∨ ((misplaced (byPath t.id2Path hist) q : ℤ) : Zr) = 0 := by
    rw [deviation_rewrite F (e := (q ++ [j], a)) hmem hlast (List.prefix_append _ _), eval_add, add_eq_left, eval_mul, eval_C,
      eval_pow, eval_X, mul_eq_zero, pow_eq_zero_iff (by omega), or_comm]
  rw [← key]
  constructor
  · intro h
    exact h q hlen htou
  · intro h r hr _
    by_cases hrq : r = q
    · rw [hrq]; exact h
    · rw [deviation_snoc_off]
      intro hpre
      apply hrq
      have hrq' : r <+: q := by
        rcases List.prefix_concat_iff.1 hpre with h | h
        · have := congrArg List.length h
          simp at this; omega
        · exact h
      exact hrq'.eq_of_length (by omega)

/-- C100: the result of `Root` is the same if the deviations agree at the trapdoor … -/
theorem C100_root_kept_partial {E : Curve G1 G2 GT} (hE : E.Lawful) {env : Env} (henv : env.Lawful) {α : Zr} {F L : ℕ}
    {ls ls₁ ls₂ : LiabilitySet G1 G2 GT} (h : NewSet E α F L ls) (hist tail : List (Str × ℤ)) (hne : hist ≠ [])
    (hids : ValidIds ls.tree.id2Path F L (hist ++ tail)) (hr₁ : ls.sets E env hist = some ls₁)
    (hr₂ : ls.sets E env (hist ++ tail) = some ls₂)
    (hs : SameAmounts (byPath ls.tree.id2Path hist) (byPath ls.tree.id2Path (hist ++ tail)))
    (hdev : ∀ q, q.length + 1 = L → touched (byPath ls.tree.id2Path hist) q →
      (deviation F (byPath ls.tree.id2Path (hist ++ tail)) q).eval α = (deviation F (byPath ls.tree.id2Path hist) q).eval α) :
    (ls₁.root E).map Prod.fst = (ls₂.root E).map Prod.fst := by
  have hL := h.pp.depth
  obtain ⟨x₁, hx₁, hroot₁⟩ := C46_first_call_partial hE henv h hist hne (fun e he => hids e (List.mem_append_left _ he)) hr₁
  obtain ⟨x₂, hx₂, hroot₂⟩ := C46_first_call_partial hE henv h _ (by simp [hne]) hids hr₂
  obtain ⟨-, t₁, s₁, hp₁, rfl⟩ := (sets_iff E env _ ls ls₁).1 hr₁
  obtain ⟨-, t₂, s₂, hp₂, rfl⟩ := (sets_iff E env _ ls ls₂).1 hr₂
  obtain ⟨t₁', s₁', hp₁', hp₁₂⟩ := puts_split hp₂
  rw [hp₁, Option.some.injEq, Prod.mk.injEq] at hp₁'
  obtain ⟨rfl, rfl⟩ := hp₁'
  have htou : touched (byPath ls.tree.id2Path hist) [] := by
    cases hist with
    | nil => exact absurd rfl hne
    | cons e l => exact ⟨_, List.mem_cons_self, List.nil_prefix⟩
  obtain ⟨x, hy₁, hy₂⟩ := contents_up hE henv h.tree hids hp₁ hp₁₂ hs hdev (L - 1) [] (by simp; omega) htou
  have i₁ : x₁ = x := Option.some.inj (hx₁.symm.trans (load_fromBytes hy₁))
  have i₂ : x₂ = x := Option.some.inj (hx₂.symm.trans (load_fromBytes hy₂))
  rw [hroot₁, hroot₂, i₁, i₂]
  rfl

/-- C100: … and another one if they do not, unless the stores exhibit a collision of the hash, a digest that is zero, or two
openings of one commitment. -/
theorem C100_root_changes {E : Curve G1 G2 GT} (hE : E.Lawful) (hgen : E.genG1 ≠ 0) {env : Env} (henv : env.Lawful) {α : Zr}
    {F L : ℕ} {ls ls₁ ls₂ : LiabilitySet G1 G2 GT} (h : NewSet E α F L ls) (hist tail : List (Str × ℤ)) (hne : hist ≠ [])
    (hids : ValidIds ls.tree.id2Path F L (hist ++ tail)) (hr₁ : ls.sets E env hist = some ls₁)
    (hr₂ : ls.sets E env (hist ++ tail) = some ls₂)
    (hs : SameAmounts (byPath ls.tree.id2Path hist) (byPath ls.tree.id2Path (hist ++ tail))) (q : List ℕ)
    (hq : q.length + 1 = L) (htou : touched (byPath ls.tree.id2Path hist) q)
    (hdev : (deviation F (byPath ls.tree.id2Path (hist ++ tail)) q).eval α ≠ (deviation F (byPath ls.tree.id2Path hist) q).eval α)
    (hroot : (ls₁.root E).map Prod.fst = (ls₂.root E).map Prod.fst) :
    Broken E α F (byPath ls.tree.id2Path hist) (byPath ls.tree.id2Path (hist ++ tail)) ls₁.s.db ls₂.s.db := by
  have hids₁ : ValidIds ls.tree.id2Path F L hist := fun e he => hids e (List.mem_append_left _ he)
  obtain ⟨x₁, hx₁, hroot₁⟩ := C46_first_call_partial hE henv h hist hne hids₁ hr₁
  obtain ⟨x₂, hx₂, hroot₂⟩ := C46_first_call_partial hE henv h _ (by simp [hne]) hids hr₂
  rw [hroot₁, hroot₂] at hroot
  simp only [Option.map_some, Option.some.injEq, Prod.mk.injEq] at hroot
  obtain ⟨-, t₁, s₁, hp₁, rfl⟩ := (sets_iff E env _ ls ls₁).1 hr₁
  obtain ⟨-, t₂, s₂, hp₂, rfl⟩ := (sets_iff E env _ ls ls₂).1 hr₂
  obtain ⟨t₁', s₁', hp₁', hp₁₂⟩ := puts_split hp₂
  rw [hp₁, Option.some.injEq, Prod.mk.injEq] at hp₁'
  obtain ⟨rfl, rfl⟩ := hp₁'
  have r₁ : Run E env α F L ls.tree hist s₁.db := ⟨hids₁, h.tree, _, _, _, hp₁, rfl⟩
  have r₂ : Run E env α F L ls.tree (hist ++ tail) s₂.db := ⟨hids, h.tree, _, _, _, hp₂, rfl⟩
  have htou₀ : touched (byPath ls.tree.id2Path hist) [] := by
    cases hist with
    | nil => exact absurd rfl hne
    | cons e l => exact ⟨_, List.mem_cons_self, List.nil_prefix⟩
  by_contra hb
  obtain ⟨y₁, hy₁⟩ := r₁.stored hE henv [] (by simp; omega) htou₀
  obtain ⟨y₂, hy₂⟩ := r₂.stored hE henv [] (by simp; omega) ((hs.touched _).1 htou₀)
  have i₁ : x₁ = y₁ := Option.some.inj (hx₁.symm.trans (load_fromBytes hy₁))
  have i₂ : x₂ = y₂ := Option.some.inj (hx₂.symm.trans (load_fromBytes hy₂))
  obtain ⟨z₁, z₂, hz₁, hz₂, hV, -⟩ := (same_down hE henv henv r₁ r₂ hne (by simp [hne]) hb
    ⟨y₁, y₂, hy₁, hy₂, by rw [← i₁, ← i₂]; exact hroot.1, by rw [← i₁, ← i₂]; exact hroot.2⟩ q (by omega)).2 htou
  obtain ⟨w₁, w₂, hw₁, hw₂, -, -, -, -, hd⟩ :=
    C100_contents_kept_partial hE henv h.tree hist tail hids hp₁ hp₁₂ hs q (by omega) htou
  have k₁ : w₁ = z₁ := Option.some.inj (hw₁.symm.trans (load_fromBytes hz₁))
  have k₂ : w₂ = z₂ := Option.some.inj (hw₂.symm.trans (load_fromBytes hz₂))
  have hd := hd hq
  rw [k₁, k₂, ← hV, left_eq_add, smul_eq_zero, sub_eq_zero] at hd
  exact hdev (hd.resolve_right hgen)

/-- C100 fails: a client at index 0, alone below the vertex over its leaf, has a positive amount, and the same amount is
written once more. `Get` still answers with it, but for every trapdoor other than zero the proofs that were accepted are so no
longer — none made for this client is accepted against any root — and `Root` answers with something else, unless the stores
exhibit a break. -/
theorem C100_violated {E : Curve G1 G2 GT} (hE : E.Lawful) (hnd : E.NonDegenerate) (hgen : E.genG1 ≠ 0) {env : Env}
    (henv : env.Lawful) {α : Zr} (hα : α ≠ 0) {F L : ℕ} {ls : LiabilitySet G1 G2 GT} (h : NewSet E α F L ls) (id : Str)
    (q : List ℕ) (hp : ls.tree.id2Path id = some (q ++ [0])) (hq : q.length + 1 = L) (hlt : ∀ x ∈ q ++ [0], x < F) (m : ℤ)
    (hm : 0 < m) (hm' : m < 2 ^ 63) :
    ∃ ls₁ ls₂, ls.sets E env [(id, m)] = some ls₁ ∧ ls.sets E env [(id, m), (id, m)] = some ls₂ ∧
      ls₁.get E env id = some (some m) ∧ ls₂.get E env id = some (some m) ∧
      (∀ rnd, RandSized F L rnd → NonzeroChallenges E env ls₁ rnd id → ∃ lp x W,
        ls₁.proveLiability E env rnd id = some (some (m, lp)) ∧ Vertex.fromBytes E (ls₁.s.db []) = some x ∧ x.W = some W ∧
        lp.verify E ls.pp id x.V W ls.tree.id2Path = some true) ∧
      (∀ rnd n lp, ls₂.proveLiability E env rnd id = some (some (n, lp)) →
        ∀ V W, lp.verify E ls.pp id V W ls.tree.id2Path ≠ some true) ∧
      ((ls₁.root E).map Prod.fst = (ls₂.root E).map Prod.fst →
        Broken E α F [(q ++ [0], m)] [(q ++ [0], m), (q ++ [0], m)] ls₁.s.db ls₂.s.db) := by
  have hids : ValidIds ls.tree.id2Path F L [(id, m), (id, m)] := by
    intro e he
    have : e = (id, m) := by simpa using he
    subst this
    exact ⟨_, hp, by simp [hq], hlt⟩
  have hids₁ : ValidIds ls.tree.id2Path F L [(id, m)] := fun e he => hids e (List.mem_cons_of_mem _ he)
  obtain ⟨t₁, s₁, hp₁⟩ := C39_writes_return hE henv h.tree (by omega : 1 ≤ L) _ ls.s hids₁
  obtain ⟨t₂, s₂, hp₂⟩ := C39_writes_return hE henv h.tree (by omega : 1 ≤ L) _ ls.s hids
  have hr₁ := (sets_iff E env _ ls { ls with tree := t₁, s := s₁ }).2
    ⟨by intro e he; simp only [List.mem_singleton] at he; subst he; exact hm.le, t₁, s₁, hp₁, rfl⟩
  have hr₂ := (sets_iff E env _ ls { ls with tree := t₂, s := s₂ }).2
    ⟨by intro e he; have : e = (id, m) := by { simpa using he }
        subst this; exact hm.le, t₂, s₂, hp₂, rfl⟩
  have b₁ : byPath ls.tree.id2Path [(id, m)] = [(q ++ [0], m)] := by simp [byPath, hp]
  have b₂ : byPath ls.tree.id2Path [(id, m), (id, m)] = [(q ++ [0], m), (q ++ [0], m)] := by simp [byPath, hp]
  have a₁ : amountBelow [(q ++ [0], m)] q = m := by
    have := amountBelow_snoc (h := []) (e := (q ++ [0], m)) (by simp) (List.prefix_append _ _)
    rw [List.nil_append] at this
    rw [this]; simp [amountBelow]
  have p₁ : pathsBelow [(q ++ [0], m)] q = 1 := by rw [pathsBelow_eq (by simp)]; simp [writesBelow]
  have d₁ := deviation_first F (q ++ [0], m) q
  have d₂ := deviation_rewrite F (h := [(q ++ [0], m)]) (e := (q ++ [0], m)) (by simp) (by simp [latest, lastPut])
    (List.prefix_append q [0])
  have hmis : misplaced [(q ++ [0], m)] q = m := by
    unfold misplaced
    rw [a₁, p₁]
    simp [latest, lastPut]
  rw [d₁, hmis, p₁, zero_add, List.cons_append, List.nil_append] at d₂
  have hmz : ((m : ℤ) : Zr) ≠ 0 := by
    have := intToZr_inj (a := m) (b := 0) hm.le le_rfl hm' (by norm_num)
    intro hc
    exact hm.ne' (this (by simpa [intToZr] using hc))
  have hd₂ : (deviation F [(q ++ [0], m), (q ++ [0], m)] q).eval α ≠ 0 := by
    rw [d₂, eval_mul, eval_C, eval_pow, eval_X]
    exact mul_ne_zero hmz (pow_ne_zero _ hα)
  have hl₁ : latest [(q ++ [0], m)] (q ++ [0]) = m := by simp [latest, lastPut]
  have g₁ := C43_get_latest hE henv h _ hids₁ hr₁ id _ hp (by simp [hq]) (by simp)
  have g₂ := C43_get_latest hE henv h _ hids hr₂ id _ hp (by simp [hq]) (by simp)
  refine ⟨_, _, hr₁, hr₂, ?_, ?_, ?_, ?_, ?_⟩
  · rw [g₁]; simp [lastPut]
  · rw [g₂]; simp [lastPut]
  · have := (C47_verifies_iff hE hnd hgen henv hα h _ hids₁ hr₁ (by rw [b₁]; simpa [totalAmount, latest, lastPut] using hm') id _ hp
      (by rw [b₁]; simp)).1 (by rw [b₁, List.dropLast_concat, d₁, eval_zero])
    rw [b₁, hl₁] at this
    exact this
  · exact (C47_verifies_iff hE hnd hgen henv hα h _ hids hr₂ (by rw [b₂]; simpa [totalAmount, latest, lastPut] using hm') id _ hp
      (by rw [b₂]; simp)).2 (by rw [b₂, List.dropLast_concat]; exact hd₂)
  · intro hroot
    have := C100_root_changes hE hgen henv h [(id, m)] [(id, m)] (by simp) hids hr₁ hr₂
      (by simp only [List.cons_append, List.nil_append]; rw [b₁, b₂]; exact sameContents_again (h := [(q ++ [0], m)]) (e := (q ++ [0], m)) (by simp [lastPut])) q hq
      (by rw [b₁]; exact ⟨_, List.mem_singleton_self _, List.prefix_append _ _⟩)
      (by simp only [List.cons_append, List.nil_append]; rw [b₁, b₂, d₁, eval_zero]; exact hd₂) hroot
    simp only [List.cons_append, List.nil_append] at this
    rw [b₁, b₂] at this
    exact this

/-- The hypotheses of `C100_violated` can be met. -/
example : ∃ ls ls₁ ls₂ : LiabilitySet Zr Zr Zr, NewSet toyCurve 2 7 3 ls ∧
    ls.sets toyCurve toyEnv [(['5', '6', '0'], 100)] = some ls₁ ∧
    ls.sets toyCurve toyEnv [(['5', '6', '0'], 100), (['5', '6', '0'], 100)] = some ls₂ ∧
    ls₂.get toyCurve toyEnv ['5', '6', '0'] = some (some 100) ∧
    ∀ rnd n lp, ls₂.proveLiability toyCurve toyEnv rnd ['5', '6', '0'] = some (some (n, lp)) →
      ∀ V W, lp.verify toyCurve ls.pp ['5', '6', '0'] V W ls.tree.id2Path ≠ some true := by
  obtain ⟨ls, h, hp⟩ := seven_set
  obtain ⟨ls₁, ls₂, h1, h2, -, h4, -, h6, -⟩ := C100_violated toyCurve_lawful toyCurve_nonDegenerate (by exact one_ne_zero) toyEnv_lawful
    two_ne_zero_zr h ['5', '6', '0'] [5, 6] (by rw [hp]; decide) rfl (by simp) 100 (by norm_num) (by norm_num)
  exact ⟨ls, ls₁, ls₂, h, h1, h2, h4, h6⟩

/-- A client alone at index 1: writing its amount again is one of the cases of `C100_rewrite_iff` in which nothing
changes; at index 0 it is not. -/
example (a : ℤ) : misplaced [([4, 1], a)] [4] = 0 ∧ misplaced [([4, 0], a)] [4] = a := by
  have f1 : ({[4, 1]} : Finset (List ℕ)).filter (fun p => [4] <+: p) = {[4, 1]} := by decide
  have f0 : ({[4, 0]} : Finset (List ℕ)).filter (fun p => [4] <+: p) = {[4, 0]} := by decide
  simp [misplaced, amountBelow, pathsBelow, latest, lastPut, f1, f0]

/-- An amount changed and changed back: the contents are the same. -/
example (a b : ℤ) : SameAmounts [([4, 1], a), ([4, 2], 5)] ([([4, 1], a), ([4, 2], 5)] ++ [([4, 1], b), ([4, 1], a)]) := by
  intro p
  by_cases h : [4, 1] = p
  · subst h; simp [lastPut]
  · by_cases h' : [4, 2] = p
    · subst h'; simp [lastPut]
    · simp [lastPut, h, h']

end PoL.Props
