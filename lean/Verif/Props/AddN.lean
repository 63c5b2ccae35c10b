import Verif.Lemmas.AddNAccepts

/-!
# C53: the operands that add_n accepts
-/

namespace Verif.Props
open Verif.Nd

/-- C53: exactly which inputs `add_n` accepts, for two or more inputs of any shapes: those where the first two have a common shape to which all others can be broadcast. (Full statement:
all inputs with a common shape, in any order.) Then every element of the result is the sum of the elements of the inputs that are read there; all other inputs make the op panic. -/
theorem C53_accepts_iff_partial {R : Type} [AddCommMonoid R] (x y : Arr R) (zs : List (Arr R)) :
    (∀ t, CommonShape x.shape y.shape t → (∀ z ∈ zs, BroadcastsTo z.shape t) →
      ∃ r, addN (x :: y :: zs) = .ok r ∧ r.shape = t ∧ ∀ i, InB i t → ∀ os, List.Forall₂ (fun (a : Arr R) o => ReadsAt a.shape i o) (x :: y :: zs) os →
        r.get i = (List.zipWith (fun (a : Arr R) o => a.get o) (x :: y :: zs) os).sum) ∧
    ((¬ ∃ t, CommonShape x.shape y.shape t ∧ ∀ z ∈ zs, BroadcastsTo z.shape t) → addN (x :: y :: zs) = .error .panic) := by
  refine ⟨fun t ht hz => ?_, fun h => ?_⟩
  · obtain ⟨b, hb, hbs, hbg⟩ := zipOp_spec (f := (· + ·)) ht
    obtain ⟨r, hr, hrs, hrg⟩ := addNLoop_to b zs (by rw [hbs]; exact hz)
    refine ⟨r, by rw [addN, hb]; exact hr, hrs.trans hbs, fun i hi os hos => ?_⟩
    have key : ∀ {l : List (Arr R)} {os : List (List Nat)}, List.Forall₂ (fun (a : Arr R) o => ReadsAt a.shape i o) l os →
        List.zipWith (fun (a : Arr R) o => a.get o) l os = l.map fun a => a.get (bIdx a.shape i) := by
      intro l os h
      induction h with
      | nil => rfl
      | cons h _ ih => rw [List.zipWith_cons_cons, List.map_cons, ih, readsAt_unique h]
    rw [key hos, hrg i, hbg i hi]
    simp [add_assoc]
  · by_cases hc : ∃ t, CommonShape x.shape y.shape t
    · obtain ⟨t, ht⟩ := hc
      obtain ⟨b, hb, hbs, -⟩ := zipOp_spec (f := (· + ·)) ht
      rw [addN, hb]
      exact addNLoop_panics b zs fun hz => h ⟨t, ht, by rwa [hbs] at hz⟩
    · rw [addN, zipOp_none hc]
      rfl

-- A row, a column and a number are accepted: the sum has two rows and three columns.
example : ∃ r, addN [ofFn [1, 3] (fun i => (i.getD 1 0 : ℤ)), ofFn [2, 1] (fun i => 10 * (i.getD 0 0 : ℤ)), ofFn [] (fun _ => 100)] = .ok r ∧ r.shape = [2, 3] ∧ r.get [1, 2] = 112 := by
  have hc : CommonShape [1, 3] [2, 1] [2, 3] := commonShape_iff.2 (by decide)
  obtain ⟨r, h1, h2, h3⟩ := (C53_accepts_iff_partial (ofFn [1, 3] (fun i => (i.getD 1 0 : ℤ))) (ofFn [2, 1] (fun i => 10 * (i.getD 0 0 : ℤ))) [ofFn [] (fun _ => 100)]).1 [2, 3] hc
    (by simp only [List.mem_singleton, forall_eq]; exact broadcastsTo_nil _)
  refine ⟨r, h1, h2, ?_⟩
  have hi : InB [1, 2] [2, 3] := .cons (by decide) (.cons (by decide) .nil)
  rw [h3 [1, 2] hi [_, _, _] (.cons (readsAt_bIdx hc.1 hi) (.cons (readsAt_bIdx hc.2.1 hi) (.cons (readsAt_bIdx (broadcastsTo_nil _) hi) .nil)))]
  decide

-- Two numbers and then a row are not accepted.
example : ¬ ∃ t, CommonShape [] [] t ∧ ∀ z ∈ [ofFn [3] (fun _ => (1 : ℤ))], BroadcastsTo z.shape t := by
  rintro ⟨t, ht, hz⟩
  have := commonShape_nil ht
  subst this
  have h := (hz _ (List.mem_singleton.2 rfl)).1
  exact absurd h (by decide)

end Verif.Props
