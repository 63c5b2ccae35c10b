import Verif.Lemmas.GradTangent

/-!
# Lemmas for the property theorems about differentiation
-/

namespace Verif.Gradient
open Verif Verif.Spec Verif.Graph
variable {Op : Type}

theorem sum_toFinset {M : Type} [AddCommMonoid M] {l : List Nat} (h : l.Nodup) (f : Nat → M) : ∑ x ∈ l.toFinset, f x = (l.map f).sum :=
  List.sum_toFinset f h

theorem leaf_independent {g : Graph Op} (hg : BpDag g) {ys xs : List Nat} {X : Finset Nat} (hX : ∀ x ∈ X, x ∈ xs)
    (hleaf : ∀ x ∈ X, IsSource g x ∧ IsDiff g x ∧ x ∉ ys) : Independent g ys xs X := by
  refine ⟨hX, fun x hx => (hleaf x hx).2.1, fun x hx => (hleaf x hx).2.2, fun x hx => .inl (hleaf x hx).1, ?_⟩
  intro x hx x' _ h
  obtain ⟨c, ⟨n, hn, i, hi, _⟩, _⟩ := Relation.TransGen.head'_iff.1 h
  obtain ⟨n', hn', hin⟩ := (hleaf x hx).1
  rw [hn] at hn'; cases hn'
  rw [(hg x n hn).1 hin] at hi
  cases hi

/-- `Op::grad` of the differentiable tensor `y`, which lies between objectives and `xs`, panics with `p`. -/
def OpGradPanics (O : GradOps Op) (g : Graph Op) (ys xs : List Nat) (p : GPanic) : Prop :=
  ∃ (y : Nat) (n : Node Op) (g' : Graph Op) (gy : Nat), IsDiff g y ∧ (y ∈ ys ∨ Leads g xs y ∧ ¬ IsSource g y) ∧ g.nodes[y]? = some n ∧ Grows g g' ∧
    gy < g'.nodes.length ∧ O.opGrad n.op g' y gy = .error p

theorem ends_cases {O : GradOps Op} {g0 : Graph Op} {ys xs : List Nat} {r : Except GPanic (GradResult Op)} (h : Ends O g0 ys xs r) :
    (∃ res, r = .ok res ∧ List.Forall₂ (fun x t => ¬ (ReachedFrom g0 ys x ∧ IsDiff g0 x) → ZerosLike O.zeros O.shapeOp res.g x t) xs res.grads) ∨
    r = .error (.graph .graphTooLarge) ∨ (∃ p, r = .error p ∧ OpGradPanics O g0 ys xs p) ∨
    (r = .error .noGradient ∧ ¬ GradGiven g0 xs O.opGrad) := by
  rcases h with ⟨res, rfl, _, h⟩ | ⟨p, rfl, (rfl | ⟨y, h1, h2, n, g', gy, h3⟩) | ⟨rfl, h⟩⟩
  · exact .inl ⟨res, rfl, h⟩
  · exact .inr (.inl rfl)
  · exact .inr (.inr (.inl ⟨p, rfl, y, n, g', gy, h1, h2, h3⟩))
  · exact .inr (.inr (.inr ⟨rfl, h⟩))

theorem log_consumers_first {g : Graph Op} (hg : BpDag g) {log : List Nat} (hn : log.Nodup) (hs : log.Pairwise (fun a b => rk g b ≤ rk g a))
    {pre post : List Nat} {k p : Nat} (e : log = pre ++ k :: post) (hp : p ∈ log) (hb : BpInput g p k) : p ∈ pre := by
  have hlt : rk g k < rk g p := by
    obtain ⟨n, hn, i, hi, rfl⟩ := hb
    obtain ⟨m, hm, h⟩ := (hg p n hn).2 i hi
    rw [rk_eq hm, rk_eq hn]; exact h
  subst e
  rcases List.mem_append.1 hp with h | h
  · exact h
  · rcases List.mem_cons.1 h with rfl | h
    · omega
    · have := (List.pairwise_append.1 hs).2.1
      have := (List.pairwise_cons.1 this).1 p h
      omega

end Verif.Gradient
