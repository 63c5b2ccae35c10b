import Mathlib.Tactic.IntervalCases
import Mathlib.Tactic.NormNum
import Verif.Lemmas.TestHelperDemo
import Verif.Lemmas.TestHelperProgram
import Verif.Props.Calls

/-! # Property theorems about the gradient checker: C68 -/

namespace Verif.Props
open Verif Verif.Spec Verif.Nd Verif.Graph Verif.Gradient Verif.Eval Verif.TestHelper Verif.Prog

variable {Op R E W : Type}

/-! ## C68 check_theoretical_grads accepts exactly the gradients that agree with the difference quotients -/

/-- **C68** What is compared. Let evaluating the gradients return the arrays `grad` of the items and let evaluating the objective (its `sum_all`) return the number `f env'` whenever the variables hold `env'`,
where only one element of the variable of an item differs from `env` by `eps` or `-eps`, both without changing variables or the world. For variables stored without gaps in memory, in the order `order`, the check
compares the central difference quotient for the `k`-th element in memory with the `k`-th element of the gradient in row-major order. It returns iff all of these differ by at most `tol`; else it panics
with one of the pairs that differ by more. In both cases all variables have their values from before the check. Variables `rest` for which there are no gradients are not checked. -/
theorem C68_compares [Field R] [LinearOrder R] (O : GradOps Op) (S : Sem Op (Arr R) E W) (g g1 : Graph Op) (fuel objective obj : Nat) (gradients rest : List Nat) (feeds : List (Feed (Arr R)))
    (eps tol : R) (env : List (Arr R)) (w : W) (items : List (Item R)) (order : Item R → Nat → List Nat) (f : List (Arr R) → R)
    (hsum : sumAll O g objective = .ok (g1, obj))
    (hgrad : ∃ r, eval S g1 fuel gradients feeds env w = some (.ok r) ∧ r.results = items.map (fun it => .ok it.grad) ∧ r.env = env ∧ r.world = w)
    (hitems : ∀ it ∈ items, it.Fits g1 env ∧ InMemory it.arr (order it))
    (hobj : ∀ it ∈ items, ∀ i, InB i it.arr.shape → ∀ u, u = eps ∨ u = -eps → GivesNumber S g1 fuel feeds obj (it.moved env i u) w (f (it.moved env i u))) :
    ((∀ it ∈ items, ∀ k < size it.arr.shape, |it.quotient f env (order it k) eps - it.grad.get (unflat it.arr.shape k)| ≤ tol) ∧
      checkGrads O S g fuel objective gradients (items.map Item.tensor ++ rest) feeds eps tol env w = some (.ok (env, w))) ∨
    (∃ it ∈ items, ∃ k < size it.arr.shape, tol < |it.quotient f env (order it k) eps - it.grad.get (unflat it.arr.shape k)| ∧
      checkGrads O S g fuel objective gradients (items.map Item.tensor ++ rest) feeds eps tol env w =
        some (.error (.tooLarge (it.quotient f env (order it k) eps) (it.grad.get (unflat it.arr.shape k)) env))) := by
  obtain ⟨r, h1, h2, h3, h4⟩ := hgrad
  have : checkGrads O S g fuel objective gradients (items.map Item.tensor ++ rest) feeds eps tol env w =
      checkVars S g1 fuel feeds obj eps tol (items.map (fun it => (it.tensor, .ok it.grad))) env w := by
    simp only [checkGrads, hsum, h1, h2, h3, h4, zip_items]
  rw [this]
  exact checkVars_eq hitems hobj

/-- **C68** For variables that are row-major in memory: the check returns iff every element of every gradient differs from the difference quotient for the same element of the variable by at most `tol`, and
otherwise panics; the variables are left as they were. -/
theorem C68_accepts_iff_partial [Field R] [LinearOrder R] (O : GradOps Op) (S : Sem Op (Arr R) E W) (g g1 : Graph Op) (fuel objective obj : Nat) (gradients : List Nat) (feeds : List (Feed (Arr R)))
    (eps tol : R) (env : List (Arr R)) (w : W) (items : List (Item R)) (f : List (Arr R) → R)
    (hsum : sumAll O g objective = .ok (g1, obj))
    (hgrad : ∃ r, eval S g1 fuel gradients feeds env w = some (.ok r) ∧ r.results = items.map (fun it => .ok it.grad) ∧ r.env = env ∧ r.world = w)
    (hitems : ∀ it ∈ items, it.Fits g1 env ∧ RowMajor it.arr)
    (hobj : ∀ it ∈ items, ∀ i, InB i it.arr.shape → ∀ u, u = eps ∨ u = -eps → GivesNumber S g1 fuel feeds obj (it.moved env i u) w (f (it.moved env i u))) :
    (checkGrads O S g fuel objective gradients (items.map Item.tensor) feeds eps tol env w = some (.ok (env, w)) ↔
      ∀ it ∈ items, ∀ i, InB i it.arr.shape → |it.quotient f env i eps - it.grad.get i| ≤ tol) ∧
    ((∃ it ∈ items, ∃ i, InB i it.arr.shape ∧ tol < |it.quotient f env i eps - it.grad.get i|) →
      ∃ num th, checkGrads O S g fuel objective gradients (items.map Item.tensor) feeds eps tol env w = some (.error (.tooLarge num th env))) := by
  have key := C68_compares O S g g1 fuel objective obj gradients [] feeds eps tol env w items (fun it => unflat it.arr.shape) f hsum hgrad
    (fun it h => ⟨(hitems it h).1, rowMajor_inMemory (hitems it h).2⟩) hobj
  rw [List.append_nil] at key
  have conv : ∀ it : Item R, (∀ k < size it.arr.shape, |it.quotient f env (unflat it.arr.shape k) eps - it.grad.get (unflat it.arr.shape k)| ≤ tol) ↔
      ∀ i, InB i it.arr.shape → |it.quotient f env i eps - it.grad.get i| ≤ tol := fun it =>
    ⟨fun h i hi => by have := h _ (flat_lt hi); rwa [unflat_flat hi] at this, fun h k hk => h _ (inB_unflat hk)⟩
  rcases key with ⟨h1, h2⟩ | ⟨it, h1, k, h2, h3, h4⟩
  · have h5 : ∀ it ∈ items, ∀ i, InB i it.arr.shape → |it.quotient f env i eps - it.grad.get i| ≤ tol := fun it h => (conv it).1 (h1 it h)
    refine ⟨⟨fun _ => h5, fun _ => h2⟩, ?_⟩
    rintro ⟨it, h6, i, h7, h8⟩
    exact absurd h8 (not_lt.2 (h5 it h6 i h7))
  · refine ⟨⟨fun h => ?_, fun h => absurd h3 (not_lt.2 (h it h1 _ (inB_unflat h2)))⟩, fun _ => ⟨_, _, h4⟩⟩
    rw [h4] at h
    cases h

/-- **C68** Real numbers: if the objective is differentiable in every element of the (row-major) variables and the gradients are its derivatives, then the check returns for every tolerance, for all
`eps` that are small enough; if some element of a gradient differs from the derivative by more than the tolerance, then the check panics for all `eps` that are small enough. -/
theorem C68_limit_partial (O : GradOps Op) (S : Sem Op (Arr ℝ) E W) (g g1 : Graph Op) (fuel objective obj : Nat) (gradients : List Nat) (feeds : List (Feed (Arr ℝ)))
    (env : List (Arr ℝ)) (w : W) (items : List (Item ℝ)) (f : List (Arr ℝ) → ℝ) (d : Item ℝ → List Nat → ℝ)
    (hsum : sumAll O g objective = .ok (g1, obj))
    (hgrad : ∃ r, eval S g1 fuel gradients feeds env w = some (.ok r) ∧ r.results = items.map (fun it => .ok it.grad) ∧ r.env = env ∧ r.world = w)
    (hitems : ∀ it ∈ items, it.Fits g1 env ∧ RowMajor it.arr)
    (hobj : ∀ it ∈ items, ∀ i, InB i it.arr.shape → ∀ u, GivesNumber S g1 fuel feeds obj (it.moved env i u) w (f (it.moved env i u)))
    (hd : ∀ it ∈ items, ∀ i, InB i it.arr.shape → HasDerivAt (fun u => f (it.moved env i u)) (d it i) 0) :
    ((∀ it ∈ items, ∀ i, InB i it.arr.shape → it.grad.get i = d it i) → ∀ tol > 0, ∃ δ > 0, ∀ eps, 0 < eps → eps < δ →
      checkGrads O S g fuel objective gradients (items.map Item.tensor) feeds eps tol env w = some (.ok (env, w))) ∧
    (∀ tol, (∃ it ∈ items, ∃ i, InB i it.arr.shape ∧ tol < |it.grad.get i - d it i|) → ∃ δ > 0, ∀ eps, 0 < eps → eps < δ →
      ∃ num th, checkGrads O S g fuel objective gradients (items.map Item.tensor) feeds eps tol env w = some (.error (.tooLarge num th env))) := by
  constructor
  · intro he tol ht
    have hex := quotients_close (tol := tol) (fun it h i hi => he it h i hi ▸ hd it h i hi) ht
    obtain ⟨δ, h1, h2⟩ := hex
    refine ⟨δ, h1, fun eps h3 h4 => ?_⟩
    exact (C68_accepts_iff_partial O S g g1 fuel objective obj gradients feeds eps tol env w items f hsum hgrad hitems (fun it h i hi u _ => hobj it h i hi u)).1.2
      fun it h i hi => h2 it h eps h3 h4 i hi
  · rintro tol ⟨it, h, i, hi, hlt⟩
    obtain ⟨δ, h1, h2⟩ := central_limit (hd it h i hi) (sub_pos.2 hlt)
    refine ⟨δ, h1, fun eps h3 h4 => ?_⟩
    refine (C68_accepts_iff_partial O S g g1 fuel objective obj gradients feeds eps tol env w items f hsum hgrad hitems (fun it h i hi u _ => hobj it h i hi u)).2 ⟨it, h, i, hi, ?_⟩
    have h5 := h2 eps h3 h4
    have h6 : |it.grad.get i - d it i| ≤ |it.quotient f env i eps - d it i| + |it.quotient f env i eps - it.grad.get i| := by
      rw [abs_sub_comm (it.quotient f env i eps) (it.grad.get i), add_comm]
      exact abs_sub_le _ _ _
    have : |it.quotient f env i eps - d it i| < |it.grad.get i - d it i| - tol := h5
    linarith

/-- **C68** The gradients that `grad` computes for an objective `y` of a program (C61) of up to about 3900 calls pass the check, for every tolerance and all `eps` that are small enough: for all variables that are
row-major, if the gradients are different tensors (else the evaluator panics, C07). -/
theorem C68_grad_passes_partial (l : List Stmt) (hs : Scoped l) (g : Graph POp) (ids : List Nat) (hb : buildCalls l = .ok (g, ids))
    (fs : List (String × Arr ℝ)) (env : List (Arr ℝ)) (val : Nat → Arr ℝ) (hd : Denotes fs env l val)
    (xs vids : List Nat) (hx : List.Forall₂ (fun k vid => l[k]? = some (.var vid)) xs vids) (hnd : vids.Nodup) (hrow : ∀ vid ∈ vids, ∀ a, env[vid]? = some a → RowMajor a)
    (hok : ∀ s ∈ l, StmtOk (Fixed l vids) (FlatIn l val) val s ∧ GradGivenFor (Fixed l vids) s) (y : Nat) (hy : y < l.length) (hsmall : 32 * (4 * l.length + xs.length + 2) ≤ 500000)
    (pick : Graph POp → List Nat → Nat) (hpick : PicksMax pick) :
    ∃ N, ∀ fuel, N ≤ fuel → ∃ r, grad gradOps pick fuel g [ids.getD y 0] (xs.map (fun k => ids.getD k 0)) = some (.ok r) ∧ (r.grads.Nodup →
      ∀ tol > 0, ∃ δ > 0, ∃ fuel0, ∀ eps, 0 < eps → eps < δ → ∀ fuel', fuel0 ≤ fuel' →
        checkGrads gradOps progSem r.g fuel' (ids.getD y 0) r.grads (xs.map (fun k => ids.getD k 0)) (named fs) eps tol env () = some (.ok (env, ()))) := by
  obtain ⟨N, hN⟩ := calls_derivs l hs g ids hb fs env val hd xs vids hx hnd hok [y] (by simp) (by simpa using hy) pick hpick
  refine ⟨N, fun fuel hf => ?_⟩
  rcases hN fuel hf with ⟨_, h⟩ | ⟨r, h1, hbl, hrr, hor, hsize, h4⟩
  · simp at h; omega
  refine ⟨r, h1, fun hgn tol ht => ?_⟩
  have hB := built hb hs
  have hyl : ids.getD y 0 < r.g.nodes.length := by
    obtain ⟨_, hv⟩ := buildCalls_values hb hs (fun s h => stmtOk_weaken (fun _ _ => trivial) (fun _ _ _ => trivial) (hok s h).1) hd
    exact evals_lt (Evals.mono hbl.grows (prog_reach hB.run).wf.closed (hv y hy))
  obtain ⟨g1, obj, hsum⟩ := sumAll_total' hyl ((hsize (by simpa using by omega)).trans (by show _ ≤ 500000; simpa using by omega))
  obtain ⟨hgr1, happ, hobj⟩ := sumAll_ok hsum
  have hb1 : Builds r.g g1 := sumAlls_builds (O := gradOps) (ys := [ids.getD y 0]) (ts := [obj]) (by simp only [sumAlls, hsum]; rfl)
  have hr1 := hb1.reach hrr
  have ho1 := hb1.oldRead hor
  obtain ⟨items, e, hit⟩ := exists_items (fun k => ids.getD k 0) hx h4
  have hvals : ∀ N' V, Denotes fs N' l V → (∀ k < l.length, (V k).shape = (val k).shape) → Evals (setting (named fs) N') g1 obj (ofFn [] (fun _ => total (V y))) := by
    intro N' V hV hsh
    obtain ⟨_, hv⟩ := buildCalls_values hb hs (fun s hsl => stmtOk_shapes (p := val) (fun a ha => by
      obtain ⟨k, hk⟩ := List.mem_iff_getElem?.1 hsl
      have h1 := hs k s hk a ha
      have h2 := (List.getElem?_eq_some_iff.1 hk).1
      exact hsh a (by omega)) (stmtOk_weaken (fun _ _ => trivial) (fun _ _ _ => trivial) (hok s hsl).1)) hV
    have h5 := Evals.mono (hbl.trans hb1).grows (prog_reach hB.run).wf.closed (hv y hy)
    refine evals_run happ (.cons h5 .nil) ?_
    show Except.ok (Nd.sumAll (V y)) = _
    rw [sumAll_total]
  have hmem : ∀ it ∈ items, it.Fits g1 env ∧ RowMajor it.arr ∧ ∀ i, InB i it.arr.shape → ∃ Vals : ℝ → Nat → Arr ℝ,
      (∀ u, Denotes fs (it.moved env i u) l (Vals u) ∧ ∀ k < l.length, (Vals u k).shape = (val k).shape) ∧ HasDerivAt (fun u => total (Vals u y)) (it.grad.get i) 0 := by
    intro it h
    obtain ⟨t, _, ⟨x, hxm, h5, h6⟩, h7, h8, h9, _, h10⟩ := forall₂_right hit h
    obtain ⟨nd, hn1, hn2⟩ : IsVariable g (ids.getD x 0) it.vid := hB.tensor x _ h6
    refine ⟨⟨⟨nd, by rw [h5]; exact (hbl.trans hb1).grows.1 _ _ hn1, hn2⟩, h8, h9⟩, hrow _ h7 _ h8, fun i hi => ?_⟩
    obtain ⟨Vals, a, b⟩ := h10 i hi
    exact ⟨Vals, a, by simpa using b⟩
  have hev : List.Forall₂ (Evals (setting (named fs) env) g1) r.grads (items.map Item.grad) := by
    rw [List.forall₂_map_right_iff]
    exact hit.imp fun t it h => Evals.mono hb1.grows hrr.wf.closed h.2.2.2.2.1
  obtain ⟨f0, hf0⟩ := evaluates_all hr1 ho1 hgn hev
  have hlt : ∀ t ∈ r.grads, t < g1.nodes.length := fun t h => by
    obtain ⟨v, _, hv⟩ := forall₂_left hev h
    exact evals_lt hv
  have hnum : ∀ it ∈ items, ∀ i, InB i it.arr.shape → ∀ u fuel, enough g1 ≤ fuel →
      GivesNumber progSem g1 fuel (named fs) obj (it.moved env i u) () (objectiveOf g1 (named fs) obj (it.moved env i u)) := by
    intro it h i hi u fuel hfu
    obtain ⟨Vals, a, _⟩ := (hmem it h).2.2 i hi
    have h5 := hvals _ _ (a u).1 (a u).2
    rw [objectiveOf_eq h5]
    exact gives_of_evals hr1 ho1 h5 rfl hfu
  have hder : ∀ it ∈ items, ∀ i, InB i it.arr.shape → HasDerivAt (fun u => objectiveOf g1 (named fs) obj (it.moved env i u)) (it.grad.get i) 0 := by
    intro it h i hi
    obtain ⟨Vals, a, b⟩ := (hmem it h).2.2 i hi
    have : (fun u => objectiveOf g1 (named fs) obj (it.moved env i u)) = fun u => total (Vals u y) := by
      funext u
      rw [objectiveOf_eq (hvals _ _ (a u).1 (a u).2)]; rfl
    rw [this]; exact b
  have hgr : ∀ fuel', f0 ≤ fuel' → ∃ r', eval progSem g1 fuel' r.grads (named fs) env () = some (.ok r') ∧ r'.results = items.map (fun it => .ok it.grad) ∧ r'.env = env ∧ r'.world = () := by
    intro fuel' h
    obtain ⟨res, h5, h6⟩ := hf0 fuel' h
    exact ⟨res, h5, by rw [h6, List.map_map]; rfl, eval_keeps hr1 ho1 hlt h5, rfl⟩
  obtain ⟨δ, hδ, hall⟩ := quotients_close hder ht
  refine ⟨δ, hδ, max f0 (enough g1), fun eps h5 h6 fuel' h7 => ?_⟩
  rw [← e]
  exact (C68_accepts_iff_partial gradOps progSem r.g g1 fuel' _ obj r.grads (named fs) eps tol env () items (objectiveOf g1 (named fs) obj) hsum (hgr fuel' (le_trans (le_max_left _ _) h7))
    (fun it h => ⟨(hmem it h).1, (hmem it h).2.1⟩) (fun it h i hi u _ => hnum it h i hi u fuel' (le_trans (le_max_right _ _) h7))).1.2 fun it h i hi => hall it h eps h5 h6 i hi

/-- **C68** False for variables that are not row-major. The objective is the sum of the elements of a 2 x 2 array weighted with 1, 2, 3, 4 (tensor 1), the variable is stored column-major. The check rejects
the true gradient and accepts the transposed one, for all contents of the variable, all `eps > 0` and all tolerances less than 1. -/
theorem C68_layout_violated (a : Arr ℚ) (ha : a.shape = [2, 2]) (hst : a.strides = [1, 2]) (eps tol : ℚ) (he : 0 < eps) (h0 : 0 ≤ tol) (h1 : tol < 1) :
    (∀ i, InB i a.shape → ∀ u, ckFun (bump a i u) = ckFun a + u * ckTrue.get i) ∧
    (∃ num th, checkGrads ckOps (ckSem ckTrue) ckGraph 20 1 [2] [0] [] eps tol [a] () = some (.error (.tooLarge num th [a]))) ∧
    checkGrads ckOps (ckSem ckWrong) ckGraph 20 1 [2] [0] [] eps tol [a] () = some (.ok ([a], ())) := by
  have hlin : ∀ i, InB i a.shape → ∀ u, ckFun (bump a i u) = ckFun a + u * ckTrue.get i := fun i hi u => ck_linear a i (ha ▸ hi) u
  have hq : ∀ claimed i, InB i a.shape → (⟨0, 0, a, claimed⟩ : Item ℚ).quotient ckOf [a] i eps = ckTrue.get i := fun claimed i hi => by
    show (ckFun (bump a i eps) - ckFun (bump a i (-eps))) / (2 * eps) = _
    rw [hlin i hi, hlin i hi]
    field_simp
    ring
  have hmem := ck_inMemory ha hst
  have key := fun claimed (hc : claimed.shape = [2, 2]) => C68_compares ckOps (ckSem claimed) ckGraph ckGraph1 20 1 3 [2] [] [] eps tol [a] () [⟨0, 0, a, claimed⟩] (fun _ k => [k % 2, k / 2]) ckOf
    ck_sum (ck_eval claimed a) (by
      intro it h
      rw [List.mem_singleton.1 h]
      exact ⟨⟨⟨_, rfl, rfl⟩, rfl, hc.trans ha.symm⟩, hmem⟩)
    (by
      intro it h i _ u _
      rw [List.mem_singleton.1 h]
      exact ck_gives claimed _)
  have hsz : size a.shape = 4 := by rw [ha]; rfl
  refine ⟨hlin, ?_, ?_⟩
  · rcases key ckTrue rfl with ⟨h2, _⟩ | ⟨it, h2, k, h3, h4, h5⟩
    · exfalso
      have := h2 _ (List.mem_singleton.2 rfl) 1 (by show 1 < size a.shape; omega)
      rw [hq _ _ (hmem 1 (by omega)).1] at this
      simp only [ha] at this
      norm_num [ckTrue, ofFn, unflat, Nd.size] at this
      linarith
    · exact ⟨_, _, h5⟩
  · rcases key ckWrong rfl with ⟨_, h2⟩ | ⟨it, h2, k, h3, h4, h5⟩
    · exact h2
    · exfalso
      rw [List.mem_singleton.1 h2] at h3 h4
      simp only at h3 h4
      rw [hq _ _ (hmem k h3).1, ha] at h4
      rw [hsz] at h3
      interval_cases k <;> norm_num [ckTrue, ckWrong, ofFn, unflat, Nd.size] at h4 <;> linarith

-- The hypotheses of the first theorems hold for the weighted sum and all row-major 2 x 2 arrays.
example (a claimed : Arr ℚ) (ha : a.shape = [2, 2]) (hr : a.strides = [2, 1]) (hc : claimed.shape = [2, 2]) : sumAll ckOps ckGraph 1 = .ok (ckGraph1, 3) ∧
    (∃ r, eval (ckSem claimed) ckGraph1 20 [2] [] [a] () = some (.ok r) ∧ r.results = [(⟨0, 0, a, claimed⟩ : Item ℚ)].map (fun it => .ok it.grad) ∧ r.env = [a] ∧ r.world = ()) ∧
    (⟨0, 0, a, claimed⟩ : Item ℚ).Fits ckGraph1 [a] ∧ RowMajor a ∧ InMemory a (unflat a.shape) ∧
    ∀ i u, GivesNumber (ckSem claimed) ckGraph1 20 [] 3 ((⟨0, 0, a, claimed⟩ : Item ℚ).moved [a] i u) () (ckOf ((⟨0, 0, a, claimed⟩ : Item ℚ).moved [a] i u)) := by
  have hrow : RowMajor a := ⟨by rw [ha, hr]; rfl, by rw [ha, hr]; rfl⟩
  exact ⟨ck_sum, ck_eval claimed a, ⟨⟨_, rfl, rfl⟩, rfl, hc.trans ha.symm⟩, hrow, rowMajor_inMemory hrow, fun i u => ck_gives claimed _⟩

-- The same over the real numbers, with the derivatives.
example (a claimed : Arr ℝ) (ha : a.shape = [2, 2]) (hr : a.strides = [2, 1]) (hc : claimed.shape = [2, 2]) : sumAll ckOps ckGraph 1 = .ok (ckGraph1, 3) ∧
    (∃ r, eval (ckSem claimed) ckGraph1 20 [2] [] [a] () = some (.ok r) ∧ r.results = [(⟨0, 0, a, claimed⟩ : Item ℝ)].map (fun it => .ok it.grad) ∧ r.env = [a] ∧ r.world = ()) ∧
    (⟨0, 0, a, claimed⟩ : Item ℝ).Fits ckGraph1 [a] ∧ RowMajor a ∧
    (∀ i u, GivesNumber (ckSem claimed) ckGraph1 20 [] 3 ((⟨0, 0, a, claimed⟩ : Item ℝ).moved [a] i u) () (ckOf ((⟨0, 0, a, claimed⟩ : Item ℝ).moved [a] i u))) ∧
    ∀ i, InB i a.shape → HasDerivAt (fun u => ckOf ((⟨0, 0, a, claimed⟩ : Item ℝ).moved [a] i u)) (ckTrue.get i) 0 := by
  refine ⟨ck_sum, ck_eval claimed a, ⟨⟨_, rfl, rfl⟩, rfl, hc.trans ha.symm⟩, ⟨by rw [ha, hr]; rfl, by rw [ha, hr]; rfl⟩, fun i u => ck_gives claimed _, fun i hi => ?_⟩
  have : (fun u => ckOf ((⟨0, 0, a, claimed⟩ : Item ℝ).moved [a] i u)) = fun u => ckFun a + u * ckTrue.get i := by
    funext u
    exact ck_linear a i (ha ▸ hi) u
  rw [this]
  simpa using ((hasDerivAt_id (0 : ℝ)).mul_const (ckTrue.get i)).const_add (ckFun a)

-- The hypotheses of `C68_grad_passes_partial` that go beyond those of C61 hold for the program of C61 and all row-major tables: it is small, and there is only one gradient.
example (table : Arr ℝ) (ht : table.shape = [5, 3]) (hr : table.strides = [3, 1]) : (∀ vid ∈ [0], ∀ a, [table][vid]? = some a → RowMajor a) ∧
    32 * (4 * cpStmts.length + [0].length + 2) ≤ 500000 ∧ ∀ t : Nat, [t].Nodup := by
  refine ⟨fun vid hv a h => ?_, by decide, by simp⟩
  rw [List.mem_singleton.1 hv] at h
  cases h
  exact ⟨by rw [ht, hr]; rfl, by rw [ht, hr]; rfl⟩

end Verif.Props
