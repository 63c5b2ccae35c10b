import Verif.Lemmas.EvalErrors

/-! Feeds that match nothing that is needed have no effect. -/

namespace Verif
open Spec Relation
variable {Op V E W : Type}

namespace Eval
open Graph

theorem findFeed_skip {shapeOf : V → List Nat} {id : Nat} {known : Option (List Int)} {name : String} {f : Feed V} {post : List (Feed V)}
    (h : ¬ FeedMatches id name f) : ∀ {pre : List (Feed V)},
    findFeed shapeOf id known name (pre ++ f :: post) = findFeed shapeOf id known name (pre ++ post)
  | [] => by
    have h1 : f.key ≠ .id id := fun h' => h (.inl h')
    have h2 : f.key ≠ .name name := fun h' => h (.inr h')
    simp only [List.nil_append]
    rw [findFeed]
    cases hk : f.key with
    | id t =>
      simp only
      rw [if_neg]
      rintro rfl; exact h1 hk
    | name s =>
      simp only
      rw [if_neg]
      rintro rfl; exact h2 hk
  | p :: pre => by
    simp only [List.cons_append, findFeed, findFeed_skip h (pre := pre)]

/-- Two lists of feeds that are found alike by every relevant placeholder. -/
def SameFeeds (shapeOf : V → List Nat) (g : Graph Op) (targets : List Nat) (feeds feeds' : List (Feed V)) : Prop :=
  ∀ (t : Nat) (n : Node Op) (name : String), (t ∈ targets ∨ ∃ a, Needed g targets a ∧ DependsDirectly g a t) →
    g.nodes[t]? = some n → n.placeholderName = some name →
    findFeed shapeOf t n.knownShape name feeds = findFeed shapeOf t n.knownShape name feeds'

theorem gather_congr {S : Sem Op V E W} {g : Graph Op} {feeds feeds' : List (Feed V)} {s : Storage V E} {env : List V} :
    ∀ {is : List Incoming}, (∀ i ∈ is, ∀ (n : Node Op) (name : String), g.nodes[i.id]? = some n → n.placeholderName = some name →
        findFeed S.shapeOf i.id n.knownShape name feeds = findFeed S.shapeOf i.id n.knownShape name feeds') →
      gather S g feeds s env is = gather S g feeds' s env is
  | [], _ => rfl
  | i :: is, h => by
    have h1 : gatherOne S g feeds s env i = gatherOne S g feeds' s env i := by
      unfold gatherOne access
      cases hn : g.nodes[i.id]? with
      | none => rfl
      | some n =>
        simp only [bind, Except.bind]
        cases hp : n.placeholderName with
        | none => rfl
        | some name => simp only [h i (by simp) n name hn hp]
    have h2 : gather S g feeds s env is = gather S g feeds' s env is := gather_congr (fun j hj => h j (by simp [hj]))
    simp only [gather, h1, h2]

theorem step_congr {S : Sem Op V E W} {g : Graph Op} {feeds feeds' : List (Feed V)} {targets : List Nat}
    (hsame : SameFeeds S.shapeOf g targets feeds feeds') {st : EvalState V E W} {e : Nat × Bool} {rest : List (Nat × Bool)}
    (hstk : st.stack = e :: rest) (hi : Inv g targets st) :
    step S g feeds e { st with stack := rest } = step S g feeds' e { st with stack := rest } := by
  obtain ⟨id, b⟩ := e
  have hid := hi.stackNeeded (id, b) (by simp [hstk])
  obtain ⟨n, hn⟩ : ∃ n, g.nodes[id]? = some n := ⟨_, List.getElem?_eq_getElem hid.1⟩
  simp only [step, access_ok.2 hn, bind, Except.bind]
  cases b with
  | false => rfl
  | true =>
    simp only [if_true]
    unfold visit
    split
    · rfl
    · rename_i hwn
      have hop : IsOp g id := by
        by_cases hop : IsOp g id
        · exact hop
        · exact absurd ((wouldNotVisit_iff hn st.storage).2 (.inl hop)) hwn
      rw [gather_congr (fun i hi' m name hm hp => hsame i.id m name (.inr ⟨id, hid.2 hop, n, hn, i, hi', rfl⟩) hm hp)]

theorem loop_congr {S : Sem Op V E W} {g : Graph Op} (hw : WF g) {feeds feeds' : List (Feed V)} {targets : List Nat}
    (hsame : SameFeeds S.shapeOf g targets feeds feeds') : ∀ (fuel : Nat) (st : EvalState V E W), Inv g targets st →
    loop S g feeds fuel st = loop S g feeds' fuel st := by
  intro fuel
  induction fuel with
  | zero => intro st _; unfold loop; rfl
  | succ fuel ih =>
    intro st hi
    unfold loop
    split
    · rfl
    · rename_i e rest hs
      simp only
      rw [step_congr hsame hs hi]
      split
      · rfl
      · rename_i st1 h1
        exact ih st1 (inv_step hw hs hi h1)

theorem aggregate_congr {S : Sem Op V E W} {g : Graph Op} {feeds feeds' : List (Feed V)} {targets : List Nat}
    (hsame : SameFeeds S.shapeOf g targets feeds feeds') {env : List V} : ∀ {ts : List Nat} {s : Storage V E}, (∀ t ∈ ts, t ∈ targets) →
    aggregate S g feeds env ts s = aggregate S g feeds' env ts s
  | [], s, _ => rfl
  | t :: ts, s, h => by
    have ih : ∀ {s}, aggregate S g feeds env ts s = aggregate S g feeds' env ts s :=
      aggregate_congr hsame (fun u hu => h u (by simp [hu]))
    unfold aggregate access
    cases hn : g.nodes[t]? with
    | none => rfl
    | some n =>
      simp only [bind, Except.bind, ih]
      cases hv : n.variableId with
      | some vid => rfl
      | none =>
        simp only
        cases hp : n.placeholderName with
        | none => rfl
        | some name => simp only [hsame t n name (.inl (h t (by simp))) hn hp]

theorem eval_congr {S : Sem Op V E W} {g : Graph Op} (hw : WF g) {feeds feeds' : List (Feed V)} {targets : List Nat}
    (ht : ∀ t ∈ targets, t < g.nodes.length) (hsame : SameFeeds S.shapeOf g targets feeds feeds') (fuel : Nat) (env : List V) (w : W) :
    eval S g fuel targets feeds env w = eval S g fuel targets feeds' env w := by
  unfold eval
  rw [loop_congr hw hsame fuel _ (inv_init ht env w)]
  split
  · rfl
  · rfl
  · rw [aggregate_congr hsame (fun t h => h)]

end Eval
end Verif
