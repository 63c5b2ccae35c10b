import Verif.Lemmas.CallsDeriv
import Verif.Lemmas.TestHelper

/-! The gradient checker on array programs. -/

namespace Verif.TestHelper
open Verif Verif.Nd Verif.Graph Verif.Gradient Verif.Eval Verif.Spec Verif.Prog

/-- Evaluating tensors of a program does not change variables. -/
theorem eval_keeps {g : Graph POp} (hr : Props.Reachable hintOps.toOps g) (ho : OldRead g) {fuel : Nat} {ts : List Nat} (ht : ∀ t ∈ ts, t < g.nodes.length) {F : List (Feed (Arr ℝ))}
    {N : List (Arr ℝ)} {res : EvalResult (Arr ℝ) Unit Unit} (h : eval progSem g fuel ts F N () = some (.ok res)) : res.env = N := by
  obtain ⟨_, h2, _⟩ := Props.C09_variable_frame hintOps.toOps progSem g fuel ts F N () res hr ht h
  refine List.ext_getElem? fun vid => h2 vid fun a _ hm => ?_
  obtain ⟨n, hn, i, hi, hm, _⟩ := hm
  rw [(ho a n hn i hi).2] at hm
  cases hm

/-- The number of loop iterations that suffices for one target. -/
def enough (g : Graph POp) : Nat := 2 * (1 + (g.nodes.map (fun n => n.incoming.length)).sum)

theorem gives_of_evals {g : Graph POp} (hr : Props.Reachable hintOps.toOps g) (ho : OldRead g) {F : List (Feed (Arr ℝ))} {N : List (Arr ℝ)} {t : Nat} {v : Arr ℝ}
    (h : Evals (setting F N) g t v) (hv : v.shape = []) {fuel : Nat} (hf : enough g ≤ fuel) : GivesNumber progSem g fuel F t N () (v.get []) := by
  have hlt : ∀ t' ∈ [t], t' < g.nodes.length := by intro t' ht; rw [List.mem_singleton.1 ht]; exact evals_lt h
  obtain ⟨r, h1⟩ := Props.C03_terminates hintOps.toOps progSem g [t] F N () hr hlt ho.acyclic
  obtain ⟨f0, h2⟩ := evaluates hr ho h
  obtain ⟨res, h3, h4⟩ := h2 (max f0 fuel) (le_max_left _ _)
  have h5 := h1 fuel hf
  rw [h1 (max f0 fuel) (le_trans hf (le_max_right _ _))] at h3
  rw [h3] at h5
  exact ⟨res, v, h5, h4, hv, rfl, eval_keeps hr ho hlt h5, rfl⟩

theorem stmtOk_shapes {p p' : Nat → Arr ℝ} {s : Stmt} (h : ∀ a ∈ s.args, (p' a).shape = (p a).shape) (hs : StmtOk (fun _ => True) (fun _ _ => True) p s) : StmtOk (fun _ => True) (fun _ _ => True) p' s := by
  cases s <;> simp_all [StmtOk, Stmt.args]

/-- The objective of the check as a function of the variables. -/
noncomputable def objectiveOf (g : Graph POp) (F : List (Feed (Arr ℝ))) (obj : Nat) (env : List (Arr ℝ)) : ℝ :=
  open Classical in if h : ∃ v : Arr ℝ, Evals (setting F env) g obj v then h.choose.get [] else 0

theorem objectiveOf_eq {g : Graph POp} {F : List (Feed (Arr ℝ))} {obj : Nat} {env : List (Arr ℝ)} {v : Arr ℝ} (h : Evals (setting F env) g obj v) : objectiveOf g F obj env = v.get [] := by
  have hex : ∃ v : Arr ℝ, Evals (setting F env) g obj v := ⟨v, h⟩
  rw [objectiveOf, dif_pos hex, evals_unique' hex.choose_spec h]

theorem sumAll_total' {g : Graph POp} {x : Nat} (hx : x < g.nodes.length) (hl : g.nodes.length ≤ numNodesCritical) : ∃ g1 obj, sumAll gradOps g x = .ok (g1, obj) := by
  obtain ⟨r, hr⟩ := Prog.buildRank_total (g := g) (is := [{ id := x }]) (by simpa using hx)
  have : ¬ g.size > numNodesCritical := by show ¬ g.nodes.length > _; omega
  exact ⟨_, _, by simp only [Gradient.sumAll, Graph.build, hr, install, this, bind, Except.bind, if_false]; rfl⟩

theorem forall₂_left {α β : Type} {P : α → β → Prop} {l : List α} {l' : List β} (h : List.Forall₂ P l l') {a : α} (ha : a ∈ l) : ∃ b, b ∈ l' ∧ P a b := by
  induction h with
  | nil => cases ha
  | cons h1 _ ih =>
    rcases List.mem_cons.1 ha with rfl | ha
    · exact ⟨_, by simp, h1⟩
    · obtain ⟨b, h2, h3⟩ := ih ha
      exact ⟨b, by simp [h2], h3⟩

theorem forall₂_right {α β : Type} {P : α → β → Prop} {l : List α} {l' : List β} (h : List.Forall₂ P l l') {b : β} (hb : b ∈ l') : ∃ a, a ∈ l ∧ P a b :=
  forall₂_left h.flip hb

theorem exists_items {R : Nat → Nat → Prop} {Q : Nat → Nat → Arr ℝ → Arr ℝ → Prop} (F : Nat → Nat) : ∀ {xs vids ts : List Nat}, List.Forall₂ R xs vids →
    List.Forall₂ (fun vid t => ∃ a v, Q vid t a v) vids ts →
    ∃ items : List (Item ℝ), items.map Item.tensor = xs.map F ∧ List.Forall₂ (fun t it => (∃ x ∈ xs, it.tensor = F x ∧ R x it.vid) ∧ it.vid ∈ vids ∧ Q it.vid t it.arr it.grad) ts items
  | _, _, _, .nil, .nil => ⟨[], rfl, .nil⟩
  | _, _, _, .cons (a := x) (b := vid) h1 h2, .cons h3 h4 => by
    obtain ⟨items, e, h⟩ := exists_items F h2 h4
    obtain ⟨a, v, hq⟩ := h3
    refine ⟨⟨F x, vid, a, v⟩ :: items, by simp [e], .cons ⟨⟨x, by simp, rfl, h1⟩, by simp, hq⟩ (h.imp ?_)⟩
    rintro t it ⟨⟨x', h5, h6⟩, h7, h8⟩
    exact ⟨⟨x', by simp [h5], h6⟩, by simp [h7], h8⟩

end Verif.TestHelper
