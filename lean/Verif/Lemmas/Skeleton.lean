import Verif.Lemmas.ClassifierGradient

/-! The links of a graph, as closed data: what a tensor reads, which variable it is, and whether it is a variable or placeholder. -/

namespace Verif.Prog
open Verif Verif.Graph Verif.Spec Verif.Gradient

abbrev Skel := List (List Nat × Option Nat × Bool)

def skel (g : Graph POp) : Skel := g.nodes.map fun n => (n.incoming.map Incoming.id, n.variableId, n.isLeafInput)

def isOpS (s : Skel) (b : Nat) : Bool :=
  match s[b]? with
  | some m => !m.2.2
  | none => false

def usesS (s : Skel) (a b : Nat) : Bool :=
  match s[a]? with
  | some n => n.1.any (fun i => i == b) && isOpS s b
  | none => false

def belowS (s : Skel) (u : Nat) : List Nat := (List.range u).reverse.foldl (fun acc b => if acc.any (fun a => usesS s a b) then b :: acc else acc) [u]

def readsS (s : Skel) (a vid : Nat) : Bool :=
  match s[a]? with
  | some n => n.1.any (fun i => match s[i]? with
    | some m => m.2.1 == some vid
    | none => false)
  | none => false

theorem skel_get (g : Graph POp) (k : Nat) : (skel g)[k]? = (g.nodes[k]?).map fun n => (n.incoming.map Incoming.id, n.variableId, n.isLeafInput) := by
  rw [skel, List.getElem?_map]

theorem skel_length (g : Graph POp) : (skel g).length = g.nodes.length := by simp [skel]

theorem isOpS_skel (g : Graph POp) (b : Nat) : isOpS (skel g) b = isOpB g b := by
  unfold isOpS isOpB
  rw [skel_get]
  cases g.nodes[b]? with
  | none => rfl
  | some n =>
    simp only [Option.map_some, Node.isLeafInput, Node.isVariable]
    cases n.placeholderName <;> cases n.variableId <;> rfl

theorem usesS_skel (g : Graph POp) (a b : Nat) : usesS (skel g) a b = usesB g a b := by
  unfold usesS usesB
  rw [skel_get]
  cases g.nodes[a]? with
  | none => rfl
  | some n =>
    simp only [Option.map_some, isOpS_skel, List.any_map]
    rfl

theorem belowS_skel (g : Graph POp) (u : Nat) : belowS (skel g) u = below g u := by
  unfold belowS below
  simp only [usesS_skel]
  rfl

theorem readsS_skel (g : Graph POp) (a v : Nat) : readsS (skel g) a v = readsB g a v := by
  unfold readsS readsB
  rw [skel_get]
  cases g.nodes[a]? with
  | none => rfl
  | some n =>
    simp only [Option.map_some, List.any_map]
    congr 1
    funext i
    simp only [Function.comp_apply, skel_get]
    cases g.nodes[i.id]? <;> rfl

/-- The tensors of `l` that read `v`. -/
def readers (s : Skel) (v : Nat) (l : List Nat) : List Nat := l.filter fun a => readsS s a v

/-- What is needed for the loss or a gradient and reads a variable `v` is needed for the gradient of `v`, or for all those of `S v`. -/
def lateS (s : Skel) (loss : Nat) (T : Nat → Nat) (S : Nat → List Nat) (vs : List Nat) : Bool :=
  vs.all fun v => (readers s v ((loss :: vs.map T).flatMap (belowS s))).all fun a =>
    (belowS s (T v)).contains a || (!(S v).isEmpty && (S v).all fun w => (belowS s (T w)).contains a)

theorem lateS_spec {g : Graph POp} {loss : Nat} {T : Nat → Nat} {S : Nat → List Nat} {vs : List Nat} (h : lateS (skel g) loss T S vs = true) {v : Nat} (hv : v ∈ vs) {a : Nat}
    (ha : a ∈ (loss :: vs.map T).flatMap (below g)) (hr : ReadsVar g a v) : a ∈ below g (T v) ∨ S v ≠ [] ∧ ∀ w ∈ S v, a ∈ below g (T w) := by
  have h1 := List.all_eq_true.1 h v hv
  have h2 := List.all_eq_true.1 h1 a (by
    simp only [readers, List.mem_filter, readsS_skel]
    refine ⟨?_, readsB_of hr⟩
    rw [show belowS (skel g) = below g from funext (belowS_skel g)]
    exact ha)
  simpa [belowS_skel] using h2

end Verif.Prog
