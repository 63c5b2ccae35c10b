import Verif.Lemmas.CallsWp
import Verif.Props.Calls

/-! The gradients of a program whose result is given by a formula. -/

namespace Verif.Props
open Verif Verif.Spec Verif.Gradient Verif.Graph Verif.Eval Verif.Nd Verif.Prog

theorem grads_of_formula {l : List Stmt} {vals : List (Arr ℝ)} {fs : List (String × Arr ℝ)} {env : List (Arr ℝ)} {vids xs : List Nat} {y : Nat} {F : List (Arr ℝ) → ℝ}
    (hG : St.Good fs env vids ⟨l, vals⟩) (hF : ∀ env' : List (Arr ℝ), env'.map Arr.shape = env.map Arr.shape → ∃ val, Denotes fs env' l val ∧ total (val y) = F env')
    (hx : List.Forall₂ (fun k vid => l[k]? = some (.var vid)) xs vids) (hnd : vids.Nodup) (hy : y < l.length) (hlen : 32 * (4 * l.length + xs.length + 2) ≤ 500000)
    (pick : Graph POp → List Nat → Nat) (hpick : PicksMax pick) :
    ∃ g ids, buildCalls l = .ok (g, ids) ∧ ids.length = l.length ∧ ∃ N, ∀ fuel, N ≤ fuel → ∃ r, grad gradOps pick fuel g [ids.getD y 0] (xs.map (fun k => ids.getD k 0)) = some (.ok r) ∧
      List.Forall₂ (fun vid t => ∃ a v : Arr ℝ, env[vid]? = some a ∧ v.shape = a.shape ∧
        (∃ fuel0, ∀ fuel', fuel0 ≤ fuel' → ∃ res, eval progSem r.g fuel' [t] (named fs) env () = some (.ok res) ∧ res.results = [.ok v]) ∧
        ∀ i, InB i a.shape → HasDerivAt (fun u => F (env.set vid (nudge a i u))) (v.get i) 0) vids r.grads := by
  obtain ⟨g, ids, hb, hids, _⟩ := C61_values_partial _ hG.inScope hG.dims (by show l.length ≤ 125000; omega) _ _ _ hG.den
    (fun c hc => stmtOk_weaken (fun _ _ => trivial) (fun _ _ _ => trivial) (hG.ok c hc).1)
  refine ⟨g, ids, hb, hids, ?_⟩
  obtain ⟨N, hN⟩ := C61_gradients_partial _ hG.inScope g ids hb _ _ _ hG.den _ _ hx hnd hG.ok [y] (by simp) (by simpa using hy) pick hpick
  refine ⟨N, fun fuel hfuel => ?_⟩
  rcases hN fuel hfuel with ⟨h1, h2⟩ | ⟨r, h1, h2⟩
  · simp only [List.length_singleton] at h2
    omega
  refine ⟨r, h1, h2.imp fun vid t ⟨a, v, ha, hs, he, hd⟩ => ⟨a, v, ha, hs, he, fun i hi => ?_⟩⟩
  obtain ⟨Vals, hV, hder⟩ := hd i hi
  have key : ∀ u, total (Vals u y) = F (env.set vid (nudge a i u)) := by
    intro u
    obtain ⟨val, h3, h4⟩ := hF (env.set vid (nudge a i u)) (by
      refine List.ext_getElem? fun k => ?_
      rw [List.getElem?_map, List.getElem?_map, List.getElem?_set]
      obtain ⟨hlt, ha'⟩ := List.getElem?_eq_some_iff.1 ha
      by_cases hk : vid = k
      · subst hk
        rw [if_pos rfl, if_pos hlt, ha]; rfl
      · rw [if_neg hk])
    rw [← h4, denotes_unique hG.inScope (hV u).1 h3 _ hy]
  simpa only [List.map_cons, List.map_nil, List.sum_cons, List.sum_nil, add_zero, key] using hder

end Verif.Props
