import Verif.Lemmas.CallsGrad
import Verif.Lemmas.ProgramGradient
import Verif.Spec.StopGradient

/-! A program in which the results of `stop_gradient` are constants. -/

namespace Verif.Prog
open Verif Verif.Spec Verif.Gradient Verif.Graph Verif.Eval Verif.Nd

def holdNode (v : Arr ℝ) (n : Node POp) : Node POp :=
  match n.op with
  | .stop => { n with op := .const v, incoming := [], placeholderName := none, variableId := none }
  | _ => n

/-- The graph with constants in the places of the nodes of `stop_gradient`. -/
def hold (p : Nat → Arr ℝ) (g : Graph POp) : Graph POp := { g with nodes := g.nodes.mapIdx fun k n => holdNode (p k) n }

theorem holdNode_other {v : Arr ℝ} {n : Node POp} (h : n.op ≠ .stop) : holdNode v n = n := by
  unfold holdNode
  split
  · next e => exact absurd e h
  · rfl

theorem holdNode_stop {v : Arr ℝ} {n : Node POp} (h : n.op = .stop) :
    holdNode v n = { n with op := .const v, incoming := [], placeholderName := none, variableId := none } := by
  unfold holdNode
  rw [h]

theorem hold_get (p : Nat → Arr ℝ) {g : Graph POp} {k : Nat} {n : Node POp} (hn : g.nodes[k]? = some n) : (hold p g).nodes[k]? = some (holdNode (p k) n) := by
  simp [hold, List.getElem?_mapIdx, hn]

theorem hold_inv {p : Nat → Arr ℝ} {g : Graph POp} {k : Nat} {m : Node POp} (hm : (hold p g).nodes[k]? = some m) : ∃ n, g.nodes[k]? = some n ∧ m = holdNode (p k) n := by
  simp only [hold, List.getElem?_mapIdx, Option.map_eq_some_iff] at hm
  obtain ⟨n, a, b⟩ := hm
  exact ⟨n, a, b.symm⟩

/-- Nodes of `stop_gradient` are neither variables nor placeholders. -/
def StopOps (g : Graph POp) : Prop := ∀ (k : Nat) (n : Node POp), g.nodes[k]? = some n → n.op = .stop → n.placeholderName = none ∧ n.variableId = none

theorem stopOps {g : Graph POp} {X : List Nat} {F : List (Feed (Arr ℝ))} {N : List (Arr ℝ)} {p : Nat → Arr ℝ} (hP : ProgGraph g X F N p) : StopOps g := by
  intro k n hn ho
  cases hP.node k n hn with
  | leaf h1 _ _ => rw [ho] at h1; rcases h1 with h | h <;> cases h
  | app h1 _ _ _ _ =>
    obtain ⟨m, hm, _, _, a, b⟩ := h1
    rw [hn] at hm; cases hm
    exact ⟨a, b⟩

theorem wf_hold (p : Nat → Arr ℝ) {g : Graph POp} (hw : WF g) (hs : StopOps g) : WF (hold p g) := by
  have hlen : (hold p g).nodes.length = g.nodes.length := by simp [hold]
  constructor
  · intro k m hm i hi
    obtain ⟨n, hn, rfl⟩ := hold_inv hm
    rw [hlen]
    by_cases ho : n.op = .stop
    · rw [holdNode_stop ho] at hi; cases hi
    · rw [holdNode_other ho] at hi; exact hw.closed k n hn i hi
  · intro k m hm hl
    obtain ⟨n, hn, rfl⟩ := hold_inv hm
    by_cases ho : n.op = .stop
    · rw [holdNode_stop ho]
    · rw [holdNode_other ho] at hl ⊢; exact hw.leafSource k n hn hl
  · intro k m hm
    obtain ⟨n, hn, rfl⟩ := hold_inv hm
    by_cases ho : n.op = .stop
    · rw [holdNode_stop ho]; exact .inl rfl
    · rw [holdNode_other ho]; exact hw.notBoth k n hn
  · intro k m hm hl
    obtain ⟨n, hn, rfl⟩ := hold_inv hm
    by_cases ho : n.op = .stop
    · rw [holdNode_stop ho] at hl; cases hl
    · rw [holdNode_other ho] at hl ⊢; exact hw.phKnown k n hn hl
  · intro v t
    refine (hw.cache v t).trans ⟨?_, ?_⟩
    · rintro ⟨n, hn, hv⟩
      refine ⟨_, hold_get p hn, ?_⟩
      by_cases ho : n.op = .stop
      · rw [(hs t n hn ho).2] at hv; cases hv
      · rw [holdNode_other ho]; exact hv
    · rintro ⟨m, hm, hv⟩
      obtain ⟨n, hn, rfl⟩ := hold_inv hm
      by_cases ho : n.op = .stop
      · rw [holdNode_stop ho] at hv; cases hv
      · rw [holdNode_other ho] at hv; exact ⟨n, hn, hv⟩

theorem hold_held (p : Nat → Arr ℝ) {g : Graph POp} {X : List Nat} {F : ℝ → List (Feed (Arr ℝ))} {N : ℝ → List (Arr ℝ)} : HeldIn g (hold p g) X p F N := by
  intro k n hn
  by_cases ho : n.op = .stop
  · refine .inr ⟨ho, fun u => evals_run (op := .const (p k)) (xs := []) ⟨_, hold_get p hn, ?_, ?_, ?_, ?_⟩ .nil rfl⟩
    all_goals rw [holdNode_stop ho]
    rfl
  · refine .inl ⟨?_, fun h => absurd h ho⟩
    rw [hold_get p hn, holdNode_other ho]

/-- A leaf has the same value in both graphs. -/
theorem leaf_hold (p : Nat → Arr ℝ) {g : Graph POp} (hs : StopOps g) {z : Nat} (hl : IsLeaf g z) {F : List (Feed (Arr ℝ))} {N : List (Arr ℝ)} {v : Arr ℝ}
    (h : Evals (setting F N) g z v) : Evals (setting F N) (hold p g) z v := by
  obtain ⟨n, hn, hx⟩ := hl
  have ho : n.op ≠ .stop := fun ho => by
    obtain ⟨a, b⟩ := hs z n hn ho
    rcases hx with h | h
    · exact h a
    · exact h b
  have hn' : (hold p g).nodes[z]? = some n := by rw [hold_get p hn, holdNode_other ho]
  refine ⟨?_, fun m hm => ?_⟩
  · cases h.1 with
    | placeholder hm h1 h2 => rw [hn] at hm; cases hm; exact .placeholder hn' h1 h2
    | variable_ hm h1 h2 => rw [hn] at hm; cases hm; exact .variable_ hn' h1 h2
    | result hm _ => cases hm with
      | run _ ho _ _ _ =>
        obtain ⟨m, hm, h1, h2⟩ := ho
        rw [hn] at hm; cases hm
        rcases hx with h | h
        · exact absurd h1 h
        · exact absurd h2 h
  · rw [hn'] at hm; cases hm; exact h.2 n hn

theorem isApp_hold (p : Nat → Arr ℝ) {g : Graph POp} {t : Nat} {op : POp} {xs : List Nat} (ha : IsApp g t op xs) (ho : op ≠ .stop) : IsApp (hold p g) t op xs := by
  obtain ⟨n, hn, h1, h2⟩ := ha
  exact ⟨n, by rw [hold_get p hn, holdNode_other (by rw [h1]; exact ho)], h1, h2⟩

/-- The values of the tensors of a program are the values of its calls, the results of `stop_gradient` being held. -/
theorem denotesHeld_of_evals {l : List Stmt} {g : Graph POp} {ids : List Nat} (hb : Built l g ids) (hs : Scoped l) {fs : List (String × Arr ℝ)} {N : List (Arr ℝ)}
    (p : Nat → Arr ℝ) (hst : StopOps g) {Y val : Nat → Arr ℝ} (hp : ∀ n, n < g.nodes.length → Evals (setting (named fs) N) (hold p g) n (Y n)) (hid : ∀ k < l.length, ids.getD k 0 < g.nodes.length)
    (hstop : ∀ (k x : Nat), l[k]? = some (.stopGradient x) → Y (ids.getD k 0) = val k)
    (hsh : ∀ (k x : Nat), l[k]? = some (.shapeOf x) → Y (ids.getD k 0) = encShape (Y (ids.getD x 0)).shape) :
    DenotesHeld fs N l val (fun k => Y (ids.getD k 0)) := by
  intro k s hk
  by_cases hss : ∃ x, s = .stopGradient x
  · obtain ⟨x, rfl⟩ := hss
    exact .inl ⟨⟨x, rfl⟩, hstop k x hk⟩
  refine .inr ⟨fun x h => hss ⟨x, h⟩, ?_⟩
  have hlt := (List.getElem?_eq_some_iff.1 hk).1
  have ht := hb.tensor k s hk
  have hev := hp _ (hid k hlt)
  cases hsa : s.app with
  | none =>
    have same : ∀ nd : Node POp, g.nodes[ids.getD k 0]? = some nd → nd.placeholderName ≠ none ∨ nd.variableId ≠ none → (hold p g).nodes[ids.getD k 0]? = some nd := by
      intro nd hn hx
      rw [hold_get p hn, holdNode_other]
      intro ho
      obtain ⟨a, b⟩ := hst _ nd hn ho
      exact hx.elim (fun h => h a) (fun h => h b)
    rcases app_none hsa with ⟨v, rfl⟩ | ⟨n, d, rfl⟩ | ⟨x, rfl⟩
    · obtain ⟨nd, a, b⟩ := ht
      exact (variable_evals ⟨nd, same nd a (.inr (by rw [b]; simp)), b⟩ hev).1
    · obtain ⟨nd, a, b, c, e⟩ := ht
      replace a := same nd a (.inl (by rw [b]; simp))
      cases hev.1 with
      | placeholder hn _ hf =>
        rw [a] at hn; cases hn
        obtain ⟨name, d', h1, h2, h3, h4⟩ := hf
        rw [b] at h1; cases h1
        rw [e] at h2; cases h2
        exact ⟨first_fedAs h3, h4⟩
      | variable_ hn hv _ => rw [a] at hn; cases hn; rw [c] at hv; cases hv
      | result hm _ => cases hm with
        | run hn ho _ _ _ =>
          obtain ⟨n', hn', h', _⟩ := ho
          rw [a] at hn'; cases hn'
          rw [b] at h'; cases h'
    · exact hsh k x hk
  | some oa =>
    obtain ⟨op, as⟩ := oa
    have happ : (s.rename (fun k => ids.getD k 0)).app = some (op, as.map (fun k => ids.getD k 0)) := by rw [app_rename, hsa]; rfl
    have ha : IsApp g (ids.getD k 0) op (as.map (fun k => ids.getD k 0)) := by
      cases s <;> first | exact ht _ _ happ | cases hsa
    have hop : op ≠ .stop := by
      rintro rfl
      cases s <;> first | exact hss ⟨_, rfl⟩ | cases hsa
    have := run_of_evals (wf_hold p hb.hinv.reach.wf hst) (isApp_hold p ha hop) (fun z hz => by
      obtain ⟨a, ham, rfl⟩ := List.mem_map.1 hz
      rw [app_args hsa] at ham
      have := hs k s hk a ham
      exact hp _ (hid a (by omega))) hev
    rw [List.map_map] at this
    exact (returns_iff hsa).2 this

end Verif.Prog
