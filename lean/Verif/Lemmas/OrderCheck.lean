import Verif.Lemmas.Below
import Verif.Lemmas.EvalOrder

/-! Checking on a given graph that variables are read before they are written. -/

namespace Verif.Prog
open Verif Verif.Graph Verif.Spec Verif.Gradient Relation
variable {Op : Type}

/-- Inputs are older tensors. -/
def Older (g : Graph Op) : Prop := ∀ (k : Nat) (n : Node Op), g.nodes[k]? = some n → ∀ i ∈ n.incoming, i.id < k

def olderB (g : Graph Op) : Bool := g.nodes.zipIdx.all fun (n, k) => n.incoming.all fun i => i.id < k

/-- The variables that the tensor may write. -/
def writesB (g : Graph Op) (a : Nat) : List Nat :=
  match g.nodes[a]? with
  | some n => n.incoming.filterMap fun i => if i.allowMut then (g.nodes[i.id]?).bind fun m => m.variableId else none
  | none => []

def cleanB (g : Graph Op) (a : Nat) : Bool := (below g a).all fun b => (writesB g b).isEmpty

def neededB (g : Graph Op) (ts : List Nat) : List Nat := (ts.filter (isOpB g)).flatMap (below g)

def readsFirstB (g : Graph Op) : List Nat → List Nat → Bool
  | _, [] => true
  | before, u :: after =>
    (before.contains u || (writesB g u).all fun vid => !(neededB g before).contains u &&
      (neededB g after).all fun a => !readsB g a vid || (neededB g (before ++ [u])).contains a) && readsFirstB g (before ++ [u]) after

theorem older_iff {g : Graph Op} (h : olderB g = true) : Older g := by
  intro k n hn i hi
  have := List.all_eq_true.1 h (n, k) (List.mem_zipIdx_iff_getElem?.2 hn)
  simpa using List.all_eq_true.1 this i hi

theorem writesB_of {g : Graph Op} {a vid : Nat} (h : MayWrite g a vid) : vid ∈ writesB g a := by
  obtain ⟨n, hn, i, hi, hm, m, h1, _, h2⟩ := h
  simp only [writesB, hn, List.mem_filterMap]
  exact ⟨i, hi, by simp [hm, h1, h2]⟩

theorem neededB_iff {g : Graph Op} (ho : Older g) {ts : List Nat} {a : Nat} : a ∈ neededB g ts ↔ Needed g ts a := by
  simp only [neededB, List.mem_flatMap, List.mem_filter, isOpB_iff, below_older ho, Needed, and_assoc]

theorem clean_of {g : Graph Op} (ho : Older g) {a : Nat} (h : cleanB g a = true) : Clean g a := by
  intro b vid hb hm
  have := List.all_eq_true.1 h b ((below_older ho).2 hb)
  have hv := writesB_of hm
  rw [List.isEmpty_iff.1 this] at hv
  cases hv

theorem readsFirst_split {g : Graph Op} (ho : Older g) : ∀ {todo pre : List Nat}, readsFirstB g pre todo = true →
    ∀ before u after vid, todo = before ++ u :: after → u ∉ pre ++ before → MayWrite g u vid →
      ¬ Needed g (pre ++ before) u ∧ ∀ a, Needed g after a → Clean g a → ReadsVar g a vid → Needed g (pre ++ before ++ [u]) a
  | [], _, _, before, u, after, _, e, _, _ => by cases before <;> cases e
  | x :: todo, pre, h, [], u, after, vid, e, hu, hm => by
    cases e
    simp only [readsFirstB, Bool.and_eq_true, Bool.or_eq_true] at h
    rw [List.append_nil] at hu ⊢
    have h1 := h.1.resolve_left (by simpa using hu)
    have h2 := List.all_eq_true.1 h1 vid (writesB_of hm)
    simp only [Bool.and_eq_true, Bool.not_eq_true', List.all_eq_true, Bool.or_eq_true] at h2
    refine ⟨fun hn => ?_, fun a ha _ hr => ?_⟩
    · have := (neededB_iff ho).2 hn
      have h3 := h2.1
      simp [this] at h3
    · have h3 := (h2.2 a ((neededB_iff ho).2 ha)).resolve_left (by simp [readsB_of hr])
      exact (neededB_iff ho).1 (by simpa using h3)
  | x :: todo, pre, h, y :: before, u, after, vid, e, hu, hm => by
    simp only [List.cons_append, List.cons.injEq] at e
    obtain ⟨rfl, rfl⟩ := e
    simp only [readsFirstB, Bool.and_eq_true] at h
    have := readsFirst_split ho h.2 before u after vid rfl (by simpa using hu) hm
    simpa using this

theorem readsFirst_of {g : Graph Op} (ho : Older g) {todo : List Nat} (h : readsFirstB g [] todo = true) : ReadsFirst g todo := by
  intro before u after vid e hu hm
  simpa using readsFirst_split ho h before u after vid e (by simpa using hu) hm

end Verif.Prog
