import Verif.Lemmas.CallsFeeds

/-! # Property theorems about the feeds of programs: C61 -/

namespace Verif.Props
open Verif Verif.Spec Verif.Gradient Verif.Graph Verif.Eval Verif.Nd Verif.Prog

/-- **C61** Feeds. In the graph of a program, and after any number of calls of `grad`, an evaluation returns (or panics with) the same for all feeds that give every placeholder of the
program the array that its name has in `fs`, whether they are given with the tensor or with the name (of several feeds for a placeholder the first one is meant): the same as with the feeds `fs` given by name.
So C61_values_partial and C61_gradients_partial hold for all such feeds. -/
theorem C61_feeds (l : List Stmt) (hs : Scoped l) (g : Graph POp) (ids : List Nat) (hb : buildCalls l = .ok (g, ids)) (g' : Graph POp)
    (hg : Relation.ReflTransGen (fun a b => ∃ pick fuel ys xs r, grad gradOps pick fuel a ys xs = some (.ok r) ∧ b = r.g) g g')
    (fs : List (String × Arr ℝ)) (feeds : List (Feed (Arr ℝ)))
    (hf : ∀ (k : Nat) (name : String) (s : List Int), l[k]? = some (.placeholder name s) → ∀ v, FirstFeed (ids.getD k 0) name feeds v ↔ FedAs fs name v)
    (ts : List Nat) (ht : ∀ t ∈ ts, t < g'.nodes.length) (fuel : Nat) (env : List (Arr ℝ)) :
    eval progSem g' fuel ts feeds env () = eval progSem g' fuel ts (named fs) env () := by
  have hbl : Builds g g' := by
    clear ht
    induction hg with
    | refl => exact .refl
    | tail _ h ih =>
      obtain ⟨pick, fuel, ys, xs, r, h, rfl⟩ := h
      exact ih.trans (grad_builds opGrad_builds h)
  refine eval_congr (hbl.reach (prog_reach (built hb hs).run)).wf ht ?_ fuel env ()
  intro t n name _ hn hp
  obtain ⟨k, sh, h1, h2⟩ := buildCalls_placeholders hb (builds_leaf hbl hn (.inl (by rw [hp]; simp))) hp
  refine findFeed_of_first fun v => ?_
  have := hf k name sh h1 v
  rw [List.getD_eq_getElem?_getD, h2] at this
  exact this.trans ⟨fun h => fedAs_first h t, first_fedAs⟩

/-- `tanh(x) + y` for two placeholders. -/
noncomputable def cfStmts : List Stmt := [.placeholder "x" [2], .un .tanh 0, .placeholder "y" [2], .add 1 2]

-- `x` is given by its tensor, `y` by its name, and a second feed for `x` has no effect.
example (a b c : Arr ℝ) : Scoped cfStmts ∧ ∃ g ids, buildCalls cfStmts = .ok (g, ids) ∧
    ∀ (k : Nat) (name : String) (s : List Int), cfStmts[k]? = some (.placeholder name s) →
      ∀ v, FirstFeed (ids.getD k 0) name [⟨.name "y", b⟩, ⟨.id (ids.getD 0 0), a⟩, ⟨.name "x", c⟩] v ↔ FedAs [("x", a), ("y", b)] name v := by
  have hS : Scoped cfStmts := by
    intro k s hk a ha
    match k, hk with
    | 0, hk => cases hk; simp [Stmt.args] at ha
    | 1, hk => cases hk; simp [Stmt.args] at ha; omega
    | 2, hk => cases hk; simp [Stmt.args] at ha
    | 3, hk => cases hk; simp [Stmt.args] at ha; omega
    | k + 4, hk => cases hk
  have hD : DimsOk cfStmts := by
    intro name d h
    simp only [cfStmts, List.mem_cons, Stmt.placeholder.injEq, List.not_mem_nil, or_false, reduceCtorEq, false_or] at h
    rcases h with ⟨_, rfl⟩ | ⟨_, rfl⟩ <;> (intro d hd; simp at hd; subst hd; exact .inr (by decide))
  obtain ⟨g, ids, hb, _⟩ := buildCalls_total hS hD (by decide)
  refine ⟨hS, g, ids, hb, fun k name s hk v => ?_⟩
  have fed : ∀ {name : String} {w : Arr ℝ}, FedAs [("x", a), ("y", b)] name w → (FedAs [("x", a), ("y", b)] name v ↔ w = v) := by
    intro name w hw
    refine ⟨fun h => ?_, fun h => h ▸ hw⟩
    exact firstFeed_unique (fedAs_first hw 0) (fedAs_first h 0)
  have first : ∀ {id : Nat} {name : String} {F : List (Feed (Arr ℝ))} {w : Arr ℝ}, FirstFeed id name F w → (FirstFeed id name F v ↔ w = v) :=
    fun hw => ⟨fun h => firstFeed_unique hw h, fun h => h ▸ hw⟩
  match k, hk with
  | 0, hk =>
    cases hk
    rw [fed (w := a) ⟨[], [("y", b)], rfl, by simp⟩]
    exact first ⟨[⟨.name "y", b⟩], _, [⟨.name "x", c⟩], rfl, .inl rfl, rfl, by simp [FeedMatches]⟩
  | 2, hk =>
    cases hk
    rw [fed (w := b) ⟨[("x", a)], [], rfl, by simp⟩]
    exact first ⟨[], _, _, rfl, .inr rfl, rfl, by simp⟩
  | k + 4, hk => cases hk

end Verif.Props
