import Mathlib.Tactic.ByContra
import Verif.Lemmas.ProgramMake
import Verif.Spec.Optimizers

/-! Computing the tensors needed for a tensor, in graphs whose inputs are older tensors. -/

namespace Verif.Prog
open Verif Verif.Graph Verif.Spec Verif.Gradient Relation
variable {Op : Type}

def isOpB (g : Graph Op) (b : Nat) : Bool :=
  match g.nodes[b]? with
  | some m => m.placeholderName.isNone && m.variableId.isNone
  | none => false

def usesB (g : Graph Op) (a b : Nat) : Bool :=
  match g.nodes[a]? with
  | some n => n.incoming.any (fun i => i.id == b) && isOpB g b
  | none => false

/-- Adds `b` to the list if a tensor of the list uses it. -/
def addUsed (g : Graph Op) (acc : List Nat) (b : Nat) : List Nat := if acc.any (fun a => usesB g a b) then b :: acc else acc

/-- The op tensors that `u` needs. -/
def below (g : Graph Op) (u : Nat) : List Nat := (List.range u).reverse.foldl (addUsed g) [u]

def readsB (g : Graph Op) (a vid : Nat) : Bool :=
  match g.nodes[a]? with
  | some n => n.incoming.any (fun i => match g.nodes[i.id]? with
    | some m => m.variableId == some vid
    | none => false)
  | none => false

theorem isOpB_iff {g : Graph Op} {b : Nat} : isOpB g b = true ↔ IsOp g b := by
  unfold isOpB IsOp
  cases h : g.nodes[b]? with
  | none => simp
  | some m => simp

theorem usesB_iff {g : Graph Op} {a b : Nat} : usesB g a b = true ↔ Uses g a b := by
  unfold usesB Uses DependsDirectly
  cases h : g.nodes[a]? with
  | none => simp
  | some n => simp [isOpB_iff]

theorem readsB_of {g : Graph Op} {a vid : Nat} (h : ReadsVar g a vid) : readsB g a vid = true := by
  obtain ⟨n, hn, i, hi, m, hm, hv⟩ := h
  unfold readsB
  simp only [hn, List.any_eq_true]
  exact ⟨i, hi, by simp [hm, hv]⟩

theorem below_older {g : Graph Op} (ho : ∀ (k : Nat) (n : Node Op), g.nodes[k]? = some n → ∀ i ∈ n.incoming, i.id < k) {u b : Nat} :
    b ∈ below g u ↔ ReflTransGen (Uses g) u b := by
  have hlt : ∀ {a b : Nat}, Uses g a b → b < a := by
    rintro a b ⟨⟨n, hn, i, hi, rfl⟩, _⟩
    exact ho a n hn i hi
  have hle : ∀ {b : Nat}, ReflTransGen (Uses g) u b → b ≤ u := by
    intro b h
    induction h with
    | refl => exact le_refl _
    | tail _ h1 ih => have := hlt h1; omega
  have key : ∀ m, m ≤ u → ∀ acc : List Nat, (∀ b, b ∈ acc ↔ ReflTransGen (Uses g) u b ∧ m ≤ b) →
      ∀ b, b ∈ (List.range m).reverse.foldl (addUsed g) acc ↔ ReflTransGen (Uses g) u b := by
    intro m
    induction m with
    | zero => intro _ acc h b; simpa using h b
    | succ m ih =>
      intro hm acc h b
      rw [List.range_succ, List.reverse_append, List.reverse_singleton, List.singleton_append, List.foldl_cons]
      refine ih (by omega) _ (fun b => ?_) b
      unfold addUsed
      split
      · rename_i hany
        obtain ⟨a, ha, hab⟩ := List.any_eq_true.1 hany
        rw [List.mem_cons]
        constructor
        · rintro (rfl | h1)
          · exact ⟨((h a).1 ha).1.tail (usesB_iff.1 hab), le_refl _⟩
          · exact ⟨((h b).1 h1).1, by have := ((h b).1 h1).2; omega⟩
        · rintro ⟨h1, h2⟩
          by_cases h3 : b = m
          · exact .inl h3
          · exact .inr ((h b).2 ⟨h1, by omega⟩)
      · rename_i hany
        constructor
        · intro h1
          exact ⟨((h b).1 h1).1, by have := ((h b).1 h1).2; omega⟩
        · rintro ⟨h1, h2⟩
          refine (h b).2 ⟨h1, ?_⟩
          by_contra h3
          rcases ReflTransGen.cases_tail h1 with h4 | ⟨c, h4, h5⟩
          · omega
          · refine hany (List.any_eq_true.2 ⟨c, (h c).2 ⟨h4, by have := hlt h5; omega⟩, ?_⟩)
            have : b = m := by omega
            subst this
            exact usesB_iff.2 h5
  refine key u (le_refl _) [u] (fun b => ?_) b
  rw [List.mem_singleton]
  constructor
  · rintro rfl; exact ⟨.refl, le_refl _⟩
  · rintro ⟨h1, h2⟩
    have := hle h1
    omega

theorem below_iff {g : Graph Op} (ho : OldRead g) {u b : Nat} : b ∈ below g u ↔ ReflTransGen (Uses g) u b := below_older (fun k n hn i hi => (ho k n hn i hi).1)

/-- All op tensors needed for `u`. -/
theorem needed_iff {g : Graph Op} (ho : OldRead g) {u : Nat} (hu : IsOp g u) {b : Nat} : Needed g [u] b ↔ b ∈ below g u := by
  rw [below_iff ho]
  constructor
  · rintro ⟨t, ht, _, h⟩
    rw [List.mem_singleton.1 ht] at h
    exact h
  · intro h
    exact ⟨u, by simp, hu, h⟩

end Verif.Prog
