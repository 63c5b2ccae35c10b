import Verif.Model.SetDiff
import Verif.Spec.SetDiff
import Verif.Lemmas.Gather

/-! # Lemmas about `setdiff1d` -/

namespace Verif.SetDiff
open Verif Verif.Nd Verif.Spec
variable {R : Type}

/-- Members of the list of elements. -/
theorem mem_elems {x : Arr R} {v : R} : v ∈ toList x ↔ Occurs v x := by
  constructor
  · intro h
    obtain ⟨k, hk, rfl⟩ := List.mem_map.1 h
    have hk := List.mem_range.1 hk
    exact ⟨_, inB_unflat hk, rfl⟩
  · rintro ⟨i, hi, rfl⟩
    exact List.mem_of_getElem? (toList_getElem hi)

/-- The collected set. -/
theorem collect_ok {toIsize : R → Option Int} {x : Arr R} (hl : isStandard x.shape x.strides = true)
    (ht : ∀ v, Occurs v x → (toIsize v).isSome) :
    ∃ s, collectSet toIsize x = .ok s ∧ s.Nodup ∧ ∀ k, k ∈ s ↔ ∃ v, Occurs v x ∧ toIsize v = some k := by
  have h : ∀ l : List R, (∀ v ∈ l, (toIsize v).isSome) →
      ∃ ns, l.mapM (fun r => unwrap (toIsize r)) = .ok ns ∧ ∀ k, k ∈ ns ↔ ∃ v ∈ l, toIsize v = some k := by
    intro l
    induction l with
    | nil => exact fun _ => ⟨[], rfl, by simp⟩
    | cons r l ih =>
      intro h
      obtain ⟨ns, h1, h2⟩ := ih fun v hv => h v (List.mem_cons_of_mem _ hv)
      obtain ⟨n, hn⟩ := Option.isSome_iff_exists.1 (h r List.mem_cons_self)
      refine ⟨n :: ns, by rw [List.mapM_cons, hn, h1]; rfl, fun k => ?_⟩
      simp only [List.mem_cons, h2, exists_eq_or_imp, hn, Option.some.injEq]
      exact or_congr_left eq_comm
  obtain ⟨ns, h1, h2⟩ := h (toList x) fun v hv => ht v (mem_elems.1 hv)
  refine ⟨ns.dedup, ?_, List.nodup_dedup _, fun k => ?_⟩
  · simp only [collectSet, asSlice, hl, if_true]
    show (do let ns ← (toList x).mapM (fun r => unwrap (toIsize r)); Except.ok ns.dedup) = _
    rw [h1]
    rfl
  · rw [List.mem_dedup, h2]
    simp only [mem_elems]

end Verif.SetDiff
