import Verif.Lemmas.ClassifierGradient

/-! # Property theorems about the classifier of the example `mlp_mnist`: C59 -/

namespace Verif.Props
open Verif Verif.Spec Verif.Gradient Verif.Graph Verif.Eval Verif.Nd Verif.Prog

/-! ## C59 The classifier -/

/-- **C59** The training code of the example `mlp_mnist`, from the calls that build the graph to the evaluated gradients. The calls succeed, and `grad(&[mean_loss], &[w, b])`
returns two tensors (after at most a fixed number of loop iterations, and whatever tensor is processed first among those of equal rank). For every data set, fed in any way (by name or by tensor), and all
arrays `w`, `b` of the right shapes: evaluating the loss and both gradients together returns, given enough loop iterations, an array holding the mean cross
entropy, and arrays of the shapes of `w` and `b` whose elements are the partial derivatives of the mean cross entropy. -/
theorem C59_classifier (bot : ℝ) (lay : Arr ℝ → List Int) (d : Nat) (column : Bool) (hd : 0 < d) :
    ∃ g, runProgram (classifier bot lay d column) = .ok (g, [0, 1, 2, 3, 4, 8, 9, 11, 12]) ∧ ∃ N, ∀ fuel, N ≤ fuel → ∀ pick, PicksMax pick →
      ∃ r tw tb, grad gradOps pick fuel g [12] [0, 1] = some (.ok r) ∧ r.grads = [tw, tb] ∧
        ∀ (n c : Nat) (x y : Arr ℝ) (l : Nat → Nat), Dataset lay d column n c x y l → ∀ feeds, FirstFeed 2 "x" feeds x → FirstFeed 3 "y" feeds y →
          ∀ (env : List (Arr ℝ)) (w b : Arr ℝ), env[0]? = some w → env[1]? = some b →
          w.shape = [d, c] → b.shape = [1, c] → ∃ L Gw Gb : Arr ℝ,
            (∃ fuel0, ∀ fuel', fuel0 ≤ fuel' → ∃ res, eval progSem r.g fuel' [12, tw, tb] feeds env () = some (.ok res) ∧
              res.results = [.ok L, .ok Gw, .ok Gb]) ∧
            L.shape = [1] ∧ L.get [0] = meanLoss n d c x w b l ∧
            Gw.shape = [d, c] ∧ (∀ j < d, ∀ k < c, HasDerivAt (fun u => meanLoss n d c x (nudge w [j, k] u) b l) (Gw.get [j, k]) 0) ∧
            Gb.shape = [1, c] ∧ ∀ k < c, HasDerivAt (fun u => meanLoss n d c x w (nudge b [0, k] u) l) (Gb.get [0, k]) 0 := by
  have hl := cl_graph bot lay d column hd
  refine ⟨_, hl, 50, fun fuel hf pick hpick => ?_⟩
  obtain ⟨r, tw, tb, hr, hrs, hnd⟩ := cl_grad bot lay d column
  rw [← grad_thin demoPick_max hpick (cl_thin bot lay d column) hf] at hr
  refine ⟨r, tw, tb, hr, hrs, fun n c x y l hD feeds hfx hfy env w b hw hb hws hbs => ?_⟩
  obtain ⟨L, Gw, Gb, h1, h2, h3, h4⟩ := cl_gradient hpick hl hr hrs hD hfx hfy hw hb hws hbs
  have hB := grad_builds opGrad_builds hr
  exact ⟨L, Gw, Gb, evaluates_all (hB.reach (prog_reach hl)) (hB.oldRead cl_oldRead) hnd (.cons h1 (.cons h2 (.cons h3 .nil))), h4⟩

-- Two examples with three features and the labels 1 and 0, both as a vector and as a column; variables of fitting shapes.
example : (0 < 3) ∧ PicksMax (demoPick (Op := POp)) ∧
    (∀ column : Bool, Dataset (fun _ => cStrides [2]) 3 column 2 2 (ofFn [2, 3] (fun i => (i.getD 0 0 + i.getD 1 0 : ℝ)))
      (ofFn (if column then [2, 1] else [2]) (fun i => ((1 - i.getD 0 0 : Nat) : ℝ))) (fun i => 1 - i)) ∧
    (∀ x y : Arr ℝ, FirstFeed 2 "x" [⟨.id 3, y⟩, ⟨.name "x", x⟩] x ∧ FirstFeed 3 "y" [⟨.id 3, y⟩, ⟨.name "x", x⟩] y) ∧
    ∃ w b : Arr ℝ, [w, b][0]? = some w ∧ [w, b][1]? = some b ∧ w.shape = [3, 2] ∧ b.shape = [1, 2] :=
  ⟨by decide, demoPick_max, fun column => ⟨by decide, by decide, by decide, rfl, by cases column <;> rfl, fun i hi => by
    refine ⟨?_, by omega⟩
    cases column <;> simp [ofFn], fun _ _ => contig_cStrides _⟩, fun x y => ⟨⟨[⟨.id 3, y⟩], _, [], rfl, .inr rfl, rfl, by
      intro f hf
      rw [List.mem_singleton.1 hf]
      rintro (h | h) <;> simp at h⟩, ⟨[], _, [⟨.name "x", x⟩], rfl, .inl rfl, rfl, by simp⟩⟩, ofFn [3, 2] (fun _ => 1), ofFn [1, 2] (fun _ => 0), rfl, rfl, rfl, rfl⟩

end Verif.Props
