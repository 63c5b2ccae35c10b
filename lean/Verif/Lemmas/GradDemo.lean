import Verif.Lemmas.Scalar
import Verif.Lemmas.GradTangent

/-!
# A small set of scalar ops

Used for the examples and witnesses about differentiation. `mul`, `addN`, `sumAll` are the ops of src/tensor_ops restricted to scalars;
`noGrad` stands for the ops which are differentiable by default but whose `grad` returns `None` (e.g. the comparison ops,
src/tensor_ops/math_ops.rs:86-184).
-/

namespace Verif.Gradient
open Verif Verif.Graph Verif.Spec Verif.Eval

/-- The ops. -/
inductive DOp where
  | addN | mul | sumAll | zeros | one | shape | noGrad | source
  | const (l : List Int)
deriving DecidableEq, Repr

/-- `Op::grad` of the ops. -/
def demoGrad (op : DOp) (g : Graph DOp) (y gy : Nat) : Except GPanic (Graph DOp × List (Option Nat)) := do
  let n ← lift (g.access y)
  match op with
  | .mul =>
    match n.incoming with
    | [a, b] => do
      let (g1, t1) ← lift (g.build { inNodes := [{ id := gy }, { id := b.id }] } .mul)
      let (g2, t2) ← lift (g1.build { inNodes := [{ id := gy }, { id := a.id }] } .mul)
      .ok (g2, [some t1, some t2])
    | _ => .error .opGrad
  | .addN => .ok (g, n.incoming.map (fun _ => some gy))
  | .sumAll => .ok (g, n.incoming.map (fun _ => some gy))
  | .zeros => .ok (g, n.incoming.map (fun _ => none))
  | .shape => .ok (g, n.incoming.map (fun _ => none))
  | .noGrad => .ok (g, n.incoming.map (fun _ => none))
  | _ => .error .opGrad

def demoO : GradOps DOp := ⟨.addN, .shape, .sumAll, .zeros, .one, .const, demoGrad⟩

def demoP : Ops DOp := ⟨.noGrad, .source, .source, .const⟩

/-- What the ops compute. -/
def demoφ {R : Type} [CommRing R] (op : DOp) (vs : List R) : R :=
  match op with
  | .addN => vs.sum
  | .mul => vs.prod
  | .sumAll => vs.sum
  | .one => 1
  | _ => 0

/-- Their partial derivatives. -/
def demoD {R : Type} [CommRing R] (op : DOp) (vs : List R) : List R :=
  match op, vs with
  | .mul, [a, b] => [b, a]
  | .addN, vs => vs.map (fun _ => 1)
  | .sumAll, vs => vs.map (fun _ => 1)
  | _, vs => vs.map (fun _ => 0)

def demoSet {R : Type} [CommRing R] (env : List R) : Setting DOp Unit R :=
  ⟨fun op xs => some (.ok [demoφ op (xs.map OpInput.val)]), fun _ => [], [], env⟩

variable {R : Type} [CommRing R] {env : List R}

theorem demo_gives (op : DOp) (vs : List R) : Gives (demoSet env) op vs (demoφ op vs) := by
  intro xs h
  simp [demoSet, h]

theorem build_app {g g' : Graph DOp} {op : DOp} {l : List Nat} {t : Nat}
    (h : g.build { inNodes := l.map (fun i => ({ id := i } : Incoming)) } op = .ok (g', t)) : IsApp g' t op l := by
  obtain ⟨rfl, _, r, _, e⟩ := build_new h
  exact ⟨_, by rw [e]; simp; rfl, rfl, rfl, rfl, rfl⟩

theorem forall₂_const {g : Graph DOp} {v : R} {gy : Nat} (hv : Evals (demoSet env) g gy v) :
    ∀ {l : List Incoming} {vs : List R}, l.length = vs.length →
      List.Forall₂ (GradIs (demoSet env) g v) (l.map (fun _ => some gy)) (vs.map (fun _ => 1)) := by
  intro l
  induction l with
  | nil => intro vs h; cases vs with
    | nil => exact .nil
    | cons => simp at h
  | cons a l ih => intro vs h; cases vs with
    | nil => simp at h
    | cons b vs => exact .cons (by simpa [GradIs] using hv) (ih (by simpa using h))

theorem forall₂_none {g : Graph DOp} {v : R} :
    ∀ {l : List Incoming} {vs : List R}, l.length = vs.length →
      List.Forall₂ (GradIs (demoSet env) g v) (l.map (fun _ => none)) (vs.map (fun _ => 0)) := by
  intro l
  induction l with
  | nil => intro vs h; cases vs with
    | nil => exact .nil
    | cons => simp at h
  | cons a l ih => intro vs h; cases vs with
    | nil => simp at h
    | cons b vs => exact .cons rfl (ih (by simpa using h))

/-- `Op::grad` of all ops multiplies by the partial derivatives. -/
theorem demo_scalarOp (op : DOp) (vs : List R) : ScalarOp (demoSet env) demoGrad op (demoφ op) vs (demoD op vs) := by
  refine ⟨demo_gives op vs, ?_, ?_⟩
  · unfold demoD; split <;> simp
  · intro g g' n gy node xs gxs v hc hp ho hxs hv h
    obtain ⟨hn, hin, _⟩ := hp
    have hlen : node.incoming.length = vs.length := by rw [hin, List.length_map, hxs.length_eq]
    simp only [demoGrad, lift_ok.2 (access_some.2 hn), bind, Except.bind] at h
    cases op with
    | mul =>
      simp only [hin] at h
      rcases xs with _ | ⟨a, _ | ⟨b, _ | ⟨c, xs⟩⟩⟩
      · simp at h
      · simp at h
      · cases hxs with
        | @cons _ va _ _ ha hxs =>
        cases hxs with
        | @cons _ vb _ _ hb hxs =>
        cases hxs
        simp only [List.map_cons, List.map_nil] at h
        cases h1 : g.build { inNodes := [{ id := gy }, { id := b }] } .mul with
        | error p => simp [h1, lift] at h
        | ok v1 =>
          obtain ⟨g1, t1⟩ := v1
          simp only [h1, lift] at h
          cases h2 : g1.build { inNodes := [{ id := gy }, { id := a }] } .mul with
          | error p => simp [h2] at h
          | ok v2 =>
            obtain ⟨g2, t2⟩ := v2
            simp only [h2, Except.ok.injEq, Prod.mk.injEq] at h
            obtain ⟨rfl, rfl⟩ := h
            have e1 := build_grows h1
            have e2 := build_grows h2
            have c1 := e1.2 hc
            have a1 : IsApp g1 t1 .mul [gy, b] := build_app h1
            have a2 : IsApp g2 t2 .mul [gy, a] := build_app h2
            refine ⟨_root_.Verif.Spec.Grows.trans e1 e2, .cons ?_ (.cons ?_ .nil)⟩
            · have := evals_app (S := demoSet env) a1 (.cons (Evals.mono e1 hc hv) (.cons (Evals.mono e1 hc hb) .nil)) (demo_gives _ _)
              simpa [GradIs, demoφ] using Evals.mono e2 c1 this
            · have := evals_app (S := demoSet env) a2 (.cons (Evals.mono e2 c1 (Evals.mono e1 hc hv)) (.cons (Evals.mono e2 c1 (Evals.mono e1 hc ha)) .nil)) (demo_gives _ _)
              simpa [GradIs, demoφ] using this
      · simp at h
    | addN =>
      simp only [Except.ok.injEq, Prod.mk.injEq] at h
      obtain ⟨rfl, rfl⟩ := h
      exact ⟨grows_refl _, forall₂_const hv hlen⟩
    | sumAll =>
      simp only [Except.ok.injEq, Prod.mk.injEq] at h
      obtain ⟨rfl, rfl⟩ := h
      exact ⟨grows_refl _, forall₂_const hv hlen⟩
    | zeros =>
      simp only [Except.ok.injEq, Prod.mk.injEq] at h
      obtain ⟨rfl, rfl⟩ := h
      exact ⟨grows_refl _, forall₂_none hlen⟩
    | shape =>
      simp only [Except.ok.injEq, Prod.mk.injEq] at h
      obtain ⟨rfl, rfl⟩ := h
      exact ⟨grows_refl _, forall₂_none hlen⟩
    | noGrad =>
      simp only [Except.ok.injEq, Prod.mk.injEq] at h
      obtain ⟨rfl, rfl⟩ := h
      exact ⟨grows_refl _, forall₂_none hlen⟩
    | one => simp at h
    | source => simp at h
    | const l => simp at h

/-- `Op::grad` is well-formed on graphs whose back-propagation inputs are the inputs. -/
theorem demo_wellFormed {g0 : Graph DOp} (hbp : ∀ (n : Nat) (node : Node DOp), g0.nodes[n]? = some node → node.bpInputs = node.incoming) :
    GradWellFormed g0 demoGrad := by
  intro n node g g' gy gxs hg hn _ hgy h
  rw [hbp n node hn]
  simp only [demoGrad, lift_ok.2 (access_some.2 (hg.1 _ _ hn)), bind, Except.bind] at h
  have hconst : ∀ {l : List Incoming}, ∀ t, some t ∈ l.map (fun _ => some gy) → t < g.nodes.length := by
    intro l t ht
    obtain ⟨_, _, e⟩ := List.mem_map.1 ht
    cases e; exact hgy
  have hnone : ∀ {l : List Incoming}, ∀ t, some t ∈ l.map (fun _ => (none : Option Nat)) → t < g.nodes.length := by
    intro l t ht
    obtain ⟨_, _, e⟩ := List.mem_map.1 ht
    cases e
  split at h
  · split at h
    · rename_i a b e
      cases h1 : g.build { inNodes := [{ id := gy }, { id := b.id }] } .mul with
      | error p => simp [h1, lift] at h
      | ok v1 =>
        obtain ⟨g1, t1⟩ := v1
        simp only [h1, lift] at h
        cases h2 : g1.build { inNodes := [{ id := gy }, { id := a.id }] } .mul with
        | error p => simp [h2] at h
        | ok v2 =>
          obtain ⟨g2, t2⟩ := v2
          simp only [h2, Except.ok.injEq, Prod.mk.injEq] at h
          obtain ⟨rfl, rfl⟩ := h
          refine ⟨_root_.Verif.Spec.Grows.trans (build_grows h1) (build_grows h2), by simp [e], ?_⟩
          obtain ⟨l1, m1, _⟩ := build_new h1
          obtain ⟨l2, m2, _⟩ := build_new h2
          intro t ht
          simp at ht
          rcases ht with rfl | rfl <;> omega
    · cases h
  all_goals first
    | (simp only [Except.ok.injEq, Prod.mk.injEq] at h
       obtain ⟨rfl, rfl⟩ := h
       exact ⟨grows_refl _, by simp, by first | exact hconst | exact hnone⟩)
    | cases h

/-- A queue that prefers the tensor inserted last among those of equal rank. -/
def demoPick {Op : Type} (g : Graph Op) : List Nat → Nat
  | [] => 0
  | [a] => a
  | a :: b :: l =>
    let c := demoPick g (b :: l)
    if ((g.nodes[c]?).map Node.topoRank).getD 0 ≤ ((g.nodes[a]?).map Node.topoRank).getD 0 then a else c

theorem demoPick_max {Op : Type} : PicksMax (demoPick (Op := Op)) := by
  intro g heap
  have key : ∀ heap, heap ≠ [] → demoPick g heap ∈ heap ∧
      ∀ h ∈ heap, ((g.nodes[h]?).map Node.topoRank).getD 0 ≤ ((g.nodes[demoPick g heap]?).map Node.topoRank).getD 0 := by
    intro heap
    induction heap with
    | nil => intro h; exact absurd rfl h
    | cons a l ih =>
      intro _
      cases l with
      | nil => simp [demoPick]
      | cons b l =>
        obtain ⟨h1, h2⟩ := ih (by simp)
        rw [demoPick]
        split
        · rename_i hle
          refine ⟨by simp, fun h hh => ?_⟩
          rcases List.mem_cons.1 hh with rfl | hh
          · exact le_refl _
          · exact le_trans (h2 h hh) hle
        · rename_i hle
          refine ⟨List.mem_cons_of_mem _ h1, fun h hh => ?_⟩
          rcases List.mem_cons.1 hh with rfl | hh
          · omega
          · exact h2 h hh
  intro hne
  obtain ⟨h1, h2⟩ := key heap hne
  refine ⟨h1, fun h hh r r' ⟨n, a, b⟩ ⟨n', a', b'⟩ => ?_⟩
  have := h2 h hh
  rw [a, a'] at this
  simpa [b, b'] using this

/-- A graph in which all op tensors are plain and all values exist is a scalar graph. -/
theorem demo_scalarGraph {g : Graph DOp} {p : Nat → R} (hc : InputsExist g)
    (hsh : ∀ (x : Nat) (n : Node DOp) s, g.nodes[x]? = some n → n.shape = some s → s < g.nodes.length)
    (hv : ∀ n, n < g.nodes.length → Evals (demoSet env) g n (p n))
    (hleaf : ∀ (n : Nat) (node : Node DOp), g.nodes[n]? = some node → node.incoming = [] → node.backpropInputs = none ∧ node.op ∈ [.source, .one])
    (hplain : ∀ (n : Nat) (node : Node DOp), g.nodes[n]? = some node → node.incoming ≠ [] → ∃ xs, PlainOp g n node xs) :
    ScalarGraph (demoSet env) g (fun n => match g.nodes[n]? with
      | some node => demoD node.op (node.incoming.map (fun i => p i.id))
      | none => []) DOp.addN DOp.zeros DOp.shape demoGrad := by
  have hbp : ∀ (n : Nat) (node : Node DOp), g.nodes[n]? = some node → node.bpInputs = node.incoming := by
    intro n node hn
    by_cases hi : node.incoming = []
    · simp [Node.bpInputs, (hleaf n node hn hi).1]
    · obtain ⟨l, hl⟩ := hplain n node hn hi
      simp [Node.bpInputs, hl.2.2.1]
  refine ⟨hc, hsh, fun n hn => ⟨_, hv n hn⟩, fun vs => demo_gives .addN vs, fun v => demo_gives .zeros [v], fun v => ⟨_, demo_gives .shape [v]⟩, ?_, ?_⟩
  · intro n node hn
    simp only [hn, hbp n node hn]
    rw [(demo_scalarOp (env := env) node.op _).len, List.length_map]
  · intro n node g1 g' gy gxs v hgr hn _ hvy h
    simp only [hn]
    by_cases hi : node.incoming = []
    · have := (hleaf n node hn hi).2
      simp only [demoGrad, lift_ok.2 (access_some.2 (hgr.1 _ _ hn)), bind, Except.bind] at h
      simp only [List.mem_cons, List.not_mem_nil, or_false] at this
      rcases this with e | e <;> simp [e] at h
    · obtain ⟨l, hl⟩ := hplain n node hn hi
      refine (demo_scalarOp (env := env) node.op _).grad (hgr.2 hc) (xs := l) ⟨hgr.1 _ _ hn, hl.2⟩ rfl ?_ hvy h
      have key : ∀ {l : List Nat} {is : List Incoming}, is = l.map (fun x => ({ id := x } : Incoming)) → (∀ i ∈ is, i.id < g.nodes.length) →
          List.Forall₂ (Evals (demoSet env) g1) l (is.map (fun i => p i.id)) := by
        intro l
        induction l with
        | nil => intro is e _; subst e; exact .nil
        | cons a l ih =>
          intro is e hlt
          subst e
          rw [List.map_cons, List.map_cons]
          exact .cons (Evals.mono hgr hc (hv a (hlt { id := a } (by simp))))
            (ih rfl (fun i hi => hlt i (by rw [List.map_cons]; exact List.mem_cons_of_mem _ hi)))
      exact key hl.2.1 (hc n node hn)

end Verif.Gradient
