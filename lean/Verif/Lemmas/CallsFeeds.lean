import Verif.Lemmas.CallsDeriv
import Verif.Lemmas.EvalFeeds
import Verif.Lemmas.HoLeaf

/-! # The placeholders in the graph of a program -/

namespace Verif.Prog
open Verif Verif.Graph Verif.Nd Verif.Hint Verif.Gradient Verif.Spec Verif.Eval

/-- A call adds at most the placeholder that it returns. -/
theorem stmt_placeholders {g g' : Graph POp} {s : Stmt} {t : Nat} (h : construct hintOps g s.ctor = .ok (g', t)) {z : Nat} {nd : Node POp} {nm : String} (hz : g'.nodes[z]? = some nd)
    (hp : nd.placeholderName = some nm) : g.nodes[z]? = some nd ∨ z = t ∧ ∃ sh, s = .placeholder nm sh := by
  have hp' : nd.placeholderName ≠ none := by rw [hp]; simp
  cases s with
  | var vid =>
    left
    simp only [Stmt.ctor, construct, variableById] at h
    split at h
    · obtain ⟨rfl, _⟩ := Prod.mk.inj (Except.ok.inj h); exact hz
    · simp only [bind_ok] at h
      obtain ⟨⟨g1, t1⟩, h1, h2⟩ := h
      have h3 := Prod.mk.inj (Except.ok.inj h2)
      obtain ⟨rfl, rfl⟩ := h3
      rcases build_cases h1 hz with h | ⟨_, r, rfl⟩
      · exact h
      · simp [Builder.toNode] at hp
  | placeholder name sh =>
    simp only [Stmt.ctor, construct, Graph.placeholder, bind_ok] at h
    obtain ⟨⟨g1, hint⟩, h1, ks, h2, h3⟩ := h
    have hb : Builds g g1 := by
      unfold placeholderHint at h1
      split at h1
      · simp only [bind_ok] at h1
        obtain ⟨⟨ga, sa⟩, k1, ⟨gb, c⟩, k2, k3⟩ := h1
        obtain ⟨rfl, rfl⟩ := Prod.mk.inj (Except.ok.inj k3)
        exact (BuildsW.one k1 rfl rfl (by simp)).trans (.one k2 rfl rfl (by simp))
      · cases h1; exact .refl
    rcases build_cases h3 hz with h | ⟨e, r, rfl⟩
    · exact .inl (builds_leaf hb h (.inl hp'))
    · right
      refine ⟨e, sh, ?_⟩
      have : name = nm := by simpa [Builder.toNode] using hp
      rw [this]
  | _ => exact .inl (builds_leaf (stmt_builds h rfl) hz (.inl hp'))

theorem rename_placeholder {s : Stmt} {f : Nat → Nat} {nm : String} {sh : List Int} (h : s.rename f = .placeholder nm sh) : s = .placeholder nm sh := by
  cases s <;> simp_all [Stmt.rename]

theorem buildFrom_placeholders : ∀ {l : List Stmt} {g g' : Graph POp} {ids ids' : List Nat}, buildFrom l g ids = .ok (g', ids') → (∃ more, ids' = ids ++ more) ∧
    ∀ {z : Nat} {nd : Node POp} {nm : String}, g'.nodes[z]? = some nd → nd.placeholderName = some nm →
      g.nodes[z]? = some nd ∨ ∃ k sh, l[k]? = some (.placeholder nm sh) ∧ ids'[ids.length + k]? = some z
  | [], g, g', ids, ids', h => by
    obtain ⟨rfl, rfl⟩ := Prod.mk.inj (Except.ok.inj h)
    exact ⟨⟨[], by simp⟩, fun hz _ => .inl hz⟩
  | s :: l, g, g', ids, ids', h => by
    simp only [buildFrom, bind_ok] at h
    obtain ⟨⟨g1, t⟩, h1, h2⟩ := h
    obtain ⟨⟨more, hm⟩, ih⟩ := buildFrom_placeholders h2
    refine ⟨⟨t :: more, by rw [hm]; simp⟩, fun {z nd nm} hz hp => ?_⟩
    rcases ih hz hp with h3 | ⟨k, sh, h3, h4⟩
    · rcases stmt_placeholders h1 h3 hp with h5 | ⟨rfl, sh, h5⟩
      · exact .inl h5
      · refine .inr ⟨0, sh, ?_, ?_⟩
        · rw [List.getElem?_cons_zero, rename_placeholder h5]
        · rw [hm]; simp
    · refine .inr ⟨k + 1, sh, by simpa using h3, ?_⟩
      rw [← h4]
      simp [Nat.add_assoc, Nat.add_comm 1 k]

/-- Every placeholder in the graph of a program was returned by a call. -/
theorem buildCalls_placeholders {l : List Stmt} {g : Graph POp} {ids : List Nat} (h : buildCalls l = .ok (g, ids)) {z : Nat} {nd : Node POp} {nm : String} (hz : g.nodes[z]? = some nd)
    (hp : nd.placeholderName = some nm) : ∃ (k : Nat) (sh : List Int), l[k]? = some (Stmt.placeholder nm sh) ∧ ids[k]? = some z := by
  rcases (buildFrom_placeholders h).2 hz hp with h1 | ⟨k, sh, h1, h2⟩
  · simp [Graph.empty] at h1
  · exact ⟨k, sh, h1, by simpa using h2⟩

theorem findFeed_of_first {V : Type} {shapeOf : V → List Nat} {id : Nat} {known : Option (List Int)} {name : String} {F F' : List (Feed V)} (h : ∀ v, FirstFeed id name F v ↔ FirstFeed id name F' v) :
    findFeed shapeOf id known name F = findFeed shapeOf id known name F' := by
  have some_ : ∀ {F : List (Feed V)} {v : V}, FirstFeed id name F v → findFeed shapeOf id known name F = (do validateKnown known (shapeOf v); .ok v) := by
    intro F v ⟨pre, f, post, e, hm, hv, hpre⟩
    subst e hv
    induction pre with
    | nil =>
      rcases hm with hm | hm <;> simp [findFeed, hm]
    | cons a pre ih =>
      have ha := hpre a (by simp)
      have := ih fun f' hf' => hpre f' (by simp [hf'])
      simp only [List.cons_append, findFeed]
      cases hk : a.key with
      | id t =>
        have : id ≠ t := fun e => ha (.inl (by rw [hk, e]))
        simp only [if_neg this]; assumption
      | name s =>
        have : name ≠ s := fun e => ha (.inr (by rw [hk, e]))
        simp only [if_neg this]; assumption
  have none_ : ∀ {F : List (Feed V)}, (∀ v, ¬ FirstFeed id name F v) → findFeed shapeOf id known name F = .error .placeholderUnfilled := by
    intro F hF
    induction F with
    | nil => rfl
    | cons a F ih =>
      have ha : ¬ FeedMatches id name a := fun hm => hF a.value ⟨[], a, F, rfl, hm, rfl, by simp⟩
      have := ih fun v ⟨pre, f, post, e, hm, hv, hpre⟩ => hF v ⟨a :: pre, f, post, by rw [e]; rfl, hm, hv, by
        intro f' hf'
        rcases List.mem_cons.1 hf' with rfl | hf'
        · exact ha
        · exact hpre f' hf'⟩
      simp only [findFeed]
      cases hk : a.key with
      | id t =>
        have : id ≠ t := fun e => ha (.inl (by rw [hk, e]))
        simp only [if_neg this]; assumption
      | name s =>
        have : name ≠ s := fun e => ha (.inr (by rw [hk, e]))
        simp only [if_neg this]; assumption
  by_cases hv : ∃ v, FirstFeed id name F v
  · obtain ⟨v, hv⟩ := hv
    rw [some_ hv, some_ ((h v).1 hv)]
  · rw [none_ fun v hv' => hv ⟨v, hv'⟩, none_ fun v hv' => hv ⟨v, (h v).2 hv'⟩]

end Verif.Prog
