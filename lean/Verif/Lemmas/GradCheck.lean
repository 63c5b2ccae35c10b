import Verif.Lemmas.GradDemo
import Mathlib.Algebra.Ring.Int.Defs

/-!
# Checks of concrete graphs

Boolean checks, evaluated on the concrete graphs of the examples and witnesses, that imply the hypotheses of the theorems about differentiation.
-/

namespace Verif.Gradient
open Verif Verif.Spec Verif.Graph Verif.Eval

/-- Checks one tensor: its inputs exist and have smaller rank, it has no custom back-propagation inputs, sources are variables or constants, other
tensors use first outputs. -/
def nodeCheck (g : Graph DOp) (n : Node DOp) : Bool :=
  n.incoming.all (fun i => match g.nodes[i.id]? with
    | some m => decide (m.topoRank < n.topoRank)
    | none => false) &&
  n.backpropInputs.isNone &&
  (match n.shape with
    | some s => decide (s < g.nodes.length)
    | none => true) &&
  (if n.incoming.isEmpty then decide (n.op ∈ [DOp.source, DOp.one]) else
    n.placeholderName.isNone && n.variableId.isNone && n.incoming.all (fun i => !i.allowMut && i.selector == 0))

def graphCheck (g : Graph DOp) : Bool := g.nodes.all (nodeCheck g)

theorem nodeCheck_of {g : Graph DOp} (h : graphCheck g = true) {a : Nat} {n : Node DOp} (hn : g.nodes[a]? = some n) : nodeCheck g n = true :=
  List.all_eq_true.1 h n (List.mem_of_getElem? hn)

theorem check_inputs {g : Graph DOp} (h : graphCheck g = true) {a : Nat} {n : Node DOp} (hn : g.nodes[a]? = some n) :
    ∀ i ∈ n.incoming, ∃ m, g.nodes[i.id]? = some m ∧ m.topoRank < n.topoRank := by
  have h1 := nodeCheck_of h hn
  simp only [nodeCheck, Bool.and_eq_true, List.all_eq_true] at h1
  intro i hi
  have h2 := h1.1.1.1 i hi
  cases hm : g.nodes[i.id]? with
  | none => simp [hm] at h2
  | some m => exact ⟨m, rfl, by simpa [hm] using h2⟩

theorem check_bp {g : Graph DOp} (h : graphCheck g = true) {a : Nat} {n : Node DOp} (hn : g.nodes[a]? = some n) :
    n.backpropInputs = none ∧ n.bpInputs = n.incoming := by
  have h1 := nodeCheck_of h hn
  simp only [nodeCheck, Bool.and_eq_true] at h1
  have := Option.isNone_iff_eq_none.1 h1.1.1.2
  exact ⟨this, by simp [Node.bpInputs, this]⟩

theorem check_bpDag {g : Graph DOp} (h : graphCheck g = true) : BpDag g := by
  intro a n hn
  rw [(check_bp h hn).2]
  exact ⟨fun e => e, check_inputs h hn⟩

theorem check_closed {g : Graph DOp} (h : graphCheck g = true) : InputsExist g := by
  intro a n hn i hi
  obtain ⟨m, hm, _⟩ := check_inputs h hn i hi
  exact (List.getElem?_eq_some_iff.1 hm).1

theorem check_shape {g : Graph DOp} (h : graphCheck g = true) (x : Nat) (n : Node DOp) (s : Nat) (hn : g.nodes[x]? = some n)
    (hs : n.shape = some s) : s < g.nodes.length := by
  have h1 := nodeCheck_of h hn
  simp only [nodeCheck, Bool.and_eq_true, hs, decide_eq_true_eq] at h1
  exact h1.1.2

theorem check_leaf {g : Graph DOp} (h : graphCheck g = true) (a : Nat) (n : Node DOp) (hn : g.nodes[a]? = some n) (hi : n.incoming = []) :
    n.backpropInputs = none ∧ n.op ∈ [DOp.source, DOp.one] := by
  refine ⟨(check_bp h hn).1, ?_⟩
  have h1 := nodeCheck_of h hn
  simp only [nodeCheck, Bool.and_eq_true, hi] at h1
  simpa using h1.2

theorem check_plain {g : Graph DOp} (h : graphCheck g = true) (a : Nat) (n : Node DOp) (hn : g.nodes[a]? = some n) (hi : n.incoming ≠ []) :
    ∃ xs, PlainOp g a n xs := by
  have h1 := nodeCheck_of h hn
  simp only [nodeCheck, Bool.and_eq_true] at h1
  have h2 := h1.2
  rw [if_neg (by simpa using hi)] at h2
  simp only [Bool.and_eq_true, Option.isNone_iff_eq_none, List.all_eq_true, Bool.not_eq_true', beq_iff_eq] at h2
  refine ⟨n.incoming.map (fun i => i.id), hn, ?_, (check_bp h hn).1, h2.1.1, h2.1.2⟩
  rw [List.map_map]
  conv_lhs => rw [← List.map_id n.incoming]
  refine List.map_congr_left fun i hi => ?_
  obtain ⟨a, b⟩ := h2.2 i hi
  cases i
  simp_all

/-- The graph made by a list of builder calls. -/
def demoGraph (cs : List (Cmd DOp)) : Graph DOp :=
  match (Graph.empty : Graph DOp).execAll demoP cs with
  | .ok (g, _) => g
  | .error _ => Graph.empty

/-- The result of a run of `grad_with_default`. -/
def demoRun (g : Graph DOp) (ys xs gys : List Nat) : GradResult DOp :=
  match gradWithDefault demoO demoPick 50 g ys xs gys with
  | some (.ok r) => r
  | _ => ⟨g, [], []⟩

/-- The values of the tensors given as a list. -/
def listVal (l : List ℤ) (n : Nat) : ℤ := l.getD n 0

/-- The partial derivatives of the tensors. -/
def demoPartials (g : Graph DOp) (l : List ℤ) (n : Nat) : List ℤ :=
  match g.nodes[n]? with
  | some node => demoD node.op (node.incoming.map (fun i => listVal l i.id))
  | none => []

/-- The calculus of a concrete graph whose tensors have the values `l`. -/
def demoCalculus (env : List ℤ) (g : Graph DOp) (l : List ℤ) : Calculus DOp :=
  scalarCalculus (demoSet env) g (demoPartials g l)

/-- Checks that the values `l` are right: variables have their values, other tensors are computed from their inputs. -/
def valCheck (env : List ℤ) (g : Graph DOp) (l : List ℤ) : Bool :=
  (List.range g.nodes.length).all fun a => match g.nodes[a]? with
    | none => false
    | some n => n.incoming.all (fun i => decide (i.id < a) && !i.allowMut && i.selector == 0) && n.placeholderName.isNone &&
      match n.variableId with
      | some v => decide (env[v]? = some (listVal l a))
      | none => decide (demoφ n.op (n.incoming.map (fun i => listVal l i.id)) = listVal l a)

theorem vals_of_check {env : List ℤ} {g : Graph DOp} {l : List ℤ} (h : valCheck env g l = true) :
    ∀ a, a < g.nodes.length → Evals (demoSet env) g a (listVal l a) := by
  intro a
  induction a using Nat.strong_induction_on with
  | _ a ih =>
    intro ha
    have h1 := List.all_eq_true.1 h a (List.mem_range.2 ha)
    rw [List.getElem?_eq_getElem ha] at h1
    have hn := List.getElem?_eq_getElem ha
    generalize g.nodes[a] = n at h1 hn
    simp only [Bool.and_eq_true, List.all_eq_true, Option.isNone_iff_eq_none, decide_eq_true_eq, Bool.not_eq_true', beq_iff_eq] at h1
    obtain ⟨⟨h2, h3⟩, h4⟩ := h1
    cases hv : n.variableId with
    | some v =>
      simp only [hv, decide_eq_true_eq] at h4
      exact ⟨.variable_ hn hv h4, fun n' hn' _ => by rw [hn] at hn'; cases hn'; exact h3⟩
    | none =>
      simp only [hv, decide_eq_true_eq] at h4
      have hin : n.incoming = (n.incoming.map (fun i => i.id)).map (fun x => ({ id := x } : Incoming)) := by
        rw [List.map_map]
        conv_lhs => rw [← List.map_id n.incoming]
        refine List.map_congr_left fun i hi => ?_
        obtain ⟨⟨_, a⟩, b⟩ := h2 i hi
        cases i
        simp_all
      rw [← h4]
      have key : ∀ {is : List Incoming}, (∀ i ∈ is, i.id < a) →
          List.Forall₂ (Evals (demoSet env) g) (is.map (fun i => i.id)) (is.map (fun i => listVal l i.id)) := by
        intro is
        induction is with
        | nil => intro _; exact .nil
        | cons i is ih2 =>
          intro hlt
          have := hlt i (by simp)
          exact .cons (ih i.id this (by omega)) (ih2 fun j hj => hlt j (by simp [hj]))
      exact evals_app ⟨n, hn, rfl, hin, h3, hv⟩ (key fun i hi => (h2 i hi).1.1) (demo_gives _ _)

theorem sound_of_check {D : Nat → Prop} {env : List ℤ} {g : Graph DOp} {l : List ℤ} (h : graphCheck g = true) (hv : valCheck env g l = true) :
    GradSound (demoCalculus env g l) g D demoO.addN demoO.zeros demoO.shapeOp demoO.opGrad :=
  scalar_sound (demo_scalarGraph (check_closed h) (check_shape h) (vals_of_check hv) (check_leaf h) (check_plain h))

theorem val_unique {env : List ℤ} {g : Graph DOp} {l : List ℤ} (hv : valCheck env g l = true) {a : Nat} (ha : a < g.nodes.length) {v : ℤ}
    (h : Evals (demoSet env) g a v) : v = listVal l a := by
  have := targetMeans_unique h.1 (vals_of_check hv a ha).1
  injection this

theorem bpDag_irrefl {g : Graph DOp} (hg : BpDag g) (a : Nat) : ¬ Relation.TransGen (BpInput g) a a :=
  fun h => absurd (rk_lt_trans hg h) (lt_irrefl _)

/-- Checks the tangents `t` of a graph with values `l` when only the tensors of `X` move. -/
def movedCheck (g : Graph DOp) (l t : List ℤ) (X : List Nat) : Bool :=
  decide (t.length ≤ g.nodes.length) && (List.range g.nodes.length).all fun a => match g.nodes[a]? with
    | none => false
    | some n => decide (a ∈ X) || (if n.differentiable && !n.incoming.isEmpty
        then decide (listVal t a = chain n.bpInputs (demoPartials g l a) (listVal t)) else decide (listVal t a = 0))

theorem moved_of_check {env : List ℤ} {g : Graph DOp} {l t : List ℤ} {X : List Nat} (h : movedCheck g l t X = true) :
    MovedBy (demoCalculus env g l) g X.toFinset (listVal t) := by
  simp only [movedCheck, Bool.and_eq_true, decide_eq_true_eq, List.all_eq_true, List.mem_range] at h
  obtain ⟨hl, h⟩ := h
  refine ⟨?_, ?_⟩
  · rintro a ha ⟨n, hn, hd⟩ hs
    have h1 := h a (List.getElem?_eq_some_iff.1 hn).1
    rw [hn] at h1
    have hi : n.incoming ≠ [] := fun e => hs ⟨n, hn, e⟩
    simp only [Bool.or_eq_true, decide_eq_true_eq] at h1
    rcases h1 with h1 | h1
    · exact absurd (List.mem_toFinset.2 h1) ha
    · rw [if_pos (by simp [hd, hi])] at h1
      show listVal t a = (scalarCalculus _ g (demoPartials g l)).lin a (listVal t)
      simp only [scalarCalculus, hn]
      simpa using h1
  · intro a ha hc
    show listVal t a = 0
    by_cases hlt : a < g.nodes.length
    · have h1 := h a hlt
      have hn := List.getElem?_eq_getElem hlt
      rw [hn] at h1
      simp only [Bool.or_eq_true, decide_eq_true_eq] at h1
      rcases h1 with h1 | h1
      · exact absurd (List.mem_toFinset.2 h1) ha
      · rw [if_neg] at h1
        · simpa using h1
        · intro hcc
          simp only [Bool.not_eq_true', List.isEmpty_eq_false_iff] at hcc
          rcases hc with hc | ⟨n', hn', he⟩
          · exact hc ⟨_, hn, hcc.1⟩
          · rw [hn] at hn'; cases hn'; exact hcc.2 he
    · simp [listVal, List.getD, List.getElem?_eq_none (by omega : t.length ≤ a)]

end Verif.Gradient
