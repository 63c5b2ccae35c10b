import Verif.Lemmas.TrainStep

/-! The loop of training steps. -/

namespace Verif.Prog
open Verif Verif.Spec Verif.Gradient Verif.Graph Verif.Eval Verif.Nd Verif.Hint Verif.Opt Verif.OptState Verif.Props

section
variable {u : UOp} {ns uns : Str} {order : List (FullName × Nat)} {e1 : VarEnv (Arr ℝ)} {vs : List Nat} {a0 : Nat → Arr ℝ} {sv : Nat → List Nat} {pick : Graph POp → List Nat → Nat} {fuel : Nat}

theorem trainSteps_append : ∀ {a : List (List Stmt × Nat × List (Feed (Arr ℝ)))} {e e' e'' : VarEnv (Arr ℝ)} {ls : List (Arr ℝ)} {l : List Stmt} {loss : Nat} {feeds : List (Feed (Arr ℝ))} {L : Arr ℝ},
    trainSteps ns order u uns pick fuel e a = some (.ok (ls, e')) → trainStep l loss ns order u uns pick fuel e' feeds = some (.ok (L, e'')) →
    trainSteps ns order u uns pick fuel e (a ++ [(l, loss, feeds)]) = some (.ok (ls ++ [L], e''))
  | [], e, e', e'', ls, l, loss, feeds, L, h, h' => by
    cases h
    simp only [List.nil_append, trainSteps, h']
  | (l1, loss1, feeds1) :: a, e, e', e'', ls, l, loss, feeds, L, h, h' => by
    simp only [trainSteps, List.cons_append] at h ⊢
    cases hi : trainStep l1 loss1 ns order u uns pick fuel e feeds1 with
    | none => rw [hi] at h; cases h
    | some r =>
      match r with
      | .error p => rw [hi] at h; cases h
      | .ok (v, e1) =>
        simp only [hi] at h ⊢
        cases hj : trainSteps ns order u uns pick fuel e1 a with
        | none => rw [hj] at h; cases h
        | some q =>
          match q with
          | .error p => rw [hj] at h; cases h
          | .ok (w, e2) =>
            rw [hj] at h
            cases h
            rw [trainSteps_append hj h']
            rfl

/-- The loop runs as long as the condition `Q` holds at the beginning of the steps. -/
theorem steps_while {steps : List (List Stmt × Nat × List (Feed (Arr ℝ)))} {Q : Nat → VarEnv (Arr ℝ) → Prop} {P : Nat → VarEnv (Arr ℝ) → Arr ℝ → (Nat → Arr ℝ) → Prop}
    (hstep : ∀ (k : Nat) (l : List Stmt) (loss : Nat) (feeds : List (Feed (Arr ℝ))), steps[k]? = some (l, loss, feeds) → ∀ e gs, StepState u e1 vs sv e gs → Q k e →
      ∃ e' L G, trainStep l loss ns order u uns pick fuel e feeds = some (.ok (L, e')) ∧ StepState u e1 vs sv e' (fun v => gs v ++ [G v]) ∧ P k e L G) :
    ∀ n, n ≤ steps.length → ∃ (E : Nat → VarEnv (Arr ℝ)) (Ls : Nat → Arr ℝ) (Gs : Nat → Nat → Arr ℝ),
      (∀ k, k ≤ n → (∀ m < k, Q m (E m)) → trainSteps ns order u uns pick fuel e1 (steps.take k) = some (.ok ((List.range k).map Ls, E k)) ∧
        StepState u e1 vs sv (E k) (fun v => (List.range k).map (fun m => Gs m v))) ∧
      ∀ k, k < n → (∀ m ≤ k, Q m (E m)) → P k (E k) (Ls k) (Gs k) := by
  intro n
  induction n with
  | zero =>
    intro _
    refine ⟨fun _ => e1, fun _ => ofFn [] (fun _ => 0), fun _ _ => ofFn [] (fun _ => 0), fun k hk _ => ?_, fun k hk => absurd hk (by omega)⟩
    have : k = 0 := by omega
    subst this
    exact ⟨rfl, rfl, fun v hv => .start⟩
  | succ n ih =>
    intro hn
    obtain ⟨E, Ls, Gs, h1, h2⟩ := ih (by omega)
    by_cases hQ : ∀ m ≤ n, Q m (E m)
    · obtain ⟨t1, s1⟩ := h1 n (le_refl _) (fun m hm => hQ m (by omega))
      obtain ⟨e', L, G, a1, a2, a3⟩ := hstep n _ _ _ (List.getElem?_eq_getElem (by omega)) (E n) _ s1 (hQ n (le_refl _))
      have hcong : ∀ {α : Type} (F : Nat → α) (F' : α) (k : Nat), k ≤ n → (List.range k).map (fun m => if m = n then F' else F m) = (List.range k).map F := by
        intro α F F' k hk
        refine List.map_congr_left fun m hm => ?_
        have := List.mem_range.1 hm
        rw [if_neg (by omega)]
      have hcong' : ∀ (v k : Nat), k ≤ n → (List.range k).map (fun m => (if m = n then G else Gs m) v) = (List.range k).map (fun m => Gs m v) := by
        intro v k hk
        refine List.map_congr_left fun m hm => ?_
        have := List.mem_range.1 hm
        rw [if_neg (by omega)]
      refine ⟨fun k => if k = n + 1 then e' else E k, fun k => if k = n then L else Ls k, fun k => if k = n then G else Gs k, fun k hk hq => ?_, fun k hk hq => ?_⟩
      · by_cases hkn : k = n + 1
        · subst hkn
          simp only [if_true]
          refine ⟨?_, ?_⟩
          · rw [List.take_succ_eq_append_getElem (by omega)]
            refine Eq.trans (trainSteps_append t1 a1) ?_
            rw [List.range_succ, List.map_append, hcong Ls L n (le_refl _)]
            simp
          · refine ⟨a2.names, fun v hv => ?_⟩
            have := a2.trained v hv
            rw [List.range_succ, List.map_append, hcong' v n (le_refl _)]
            simpa using this
        · simp only [if_neg hkn]
          obtain ⟨t, s⟩ := h1 k (by omega) (fun m hm => hQ m (by omega))
          refine ⟨by rw [hcong Ls L k (by omega)]; exact t, s.names, fun v hv => ?_⟩
          rw [hcong' v k (by omega)]
          exact s.trained v hv
      · simp only [show k ≠ n + 1 by omega, if_false]
        by_cases hkn : k = n
        · subst hkn
          simpa using a3
        · simp only [if_neg hkn]
          exact h2 k (by omega) (fun m hm => hQ m (by omega))
    · refine ⟨E, Ls, Gs, fun k hk hq => ?_, fun k hk hq => ?_⟩
      · by_cases hkn : k = n + 1
        · exact absurd (fun m hm => hq m (by omega)) hQ
        · exact h1 k (by omega) hq
      · by_cases hkn : k = n
        · subst hkn
          exact absurd hq hQ
        · exact h2 k (by omega) hq

theorem steps_train {steps : List (List Stmt × Nat × List (Feed (Arr ℝ)))} {P : Nat → VarEnv (Arr ℝ) → Arr ℝ → (Nat → Arr ℝ) → Prop}
    (hstep : ∀ (k : Nat) (l : List Stmt) (loss : Nat) (feeds : List (Feed (Arr ℝ))), steps[k]? = some (l, loss, feeds) → ∀ e gs, StepState u e1 vs sv e gs →
      ∃ e' L G, trainStep l loss ns order u uns pick fuel e feeds = some (.ok (L, e')) ∧ StepState u e1 vs sv e' (fun v => gs v ++ [G v]) ∧ P k e L G) (n : Nat) (hn : n ≤ steps.length) :
    ∃ (E : Nat → VarEnv (Arr ℝ)) (Ls : Nat → Arr ℝ) (Gs : Nat → Nat → Arr ℝ),
      (∀ k, k ≤ n → trainSteps ns order u uns pick fuel e1 (steps.take k) = some (.ok ((List.range k).map Ls, E k)) ∧
        StepState u e1 vs sv (E k) (fun v => (List.range k).map (fun m => Gs m v))) ∧
      ∀ k, k < n → P k (E k) (Ls k) (Gs k) := by
  obtain ⟨E, Ls, Gs, h1, h2⟩ := steps_while (Q := fun _ _ => True) (P := P) (fun k l loss feeds h e gs he _ => hstep k l loss feeds h e gs he) n hn
  exact ⟨E, Ls, Gs, fun k hk => h1 k hk fun _ _ => trivial, fun k hk => h2 k hk fun _ _ => trivial⟩

/-- The parameters after the steps: their shapes, and their elements by the formula of the optimizer. -/
theorem steps_followed (hS : StepSetup u uns e1 vs a0 sv) {e : VarEnv (Arr ℝ)} {k : Nat} {Gs : Nat → Nat → Arr ℝ} (he : StepState u e1 vs sv e (fun v => (List.range k).map (fun m => Gs m v)))
    (hG : ∀ m < k, ∀ v ∈ vs, (Gs m v).shape = (a0 v).shape) {v : Nat} (hv : v ∈ vs) :
    ∃ a, e.getById v = some a ∧ a.shape = (a0 v).shape ∧ ∀ i, InB i (a0 v).shape → a.get i = followed u ((a0 v).get i) (fun m => (Gs m v).get i) k := by
  obtain ⟨a, ss, a1, a2, _, a3⟩ := (hS.ready v hv).after _ _ (he.trained v hv)
  have a1 : e.getById v = some a := by cases a1; assumption
  refine ⟨a, a1, a2, fun i hi => ?_⟩
  have := a3 i _ hi (gradAt_same (F := fun m => Gs m v) hi fun m hm => hG m hm v hv)
  simpa using this

end

end Verif.Prog
