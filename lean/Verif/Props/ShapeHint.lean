import Mathlib.Algebra.Field.Rat
import Mathlib.Tactic.FinCases
import Verif.Lemmas.ShapeSample
import Verif.Props.Eval

/-! # Property theorems about shape tensors: C43 -/

namespace Verif.Props
open Verif Verif.Spec Verif.Hint Verif.Eval Verif.Nd
variable {Op V E W R : Type}

/-! ## C43 `shape(x)` is the shape of `x` -/

/-- **C43** (partial: for calls that satisfy `CtorOk`, see the theorems `C43_.._violated` for calls that do not) After any sequence of
constructor calls, if `x` evaluates to `v` then the tensor returned by `shape(x)` evaluates to the shape of `v`. -/
theorem C43_shape_partial (H : HintOps Op) (f : Op → List (OpInput V) → Option (Except E (List V))) (shapeOf : V → List Nat) (enc : List Nat → V)
    (cs : List (Ctor Op)) (g : Graph Op) (ts : List Nat) (feeds : List (Feed V)) (env : List V) (hcs : constructAll H Graph.empty cs = .ok (g, ts))
    (hS : ShapeOps H f shapeOf enc) (hok : ∀ c ∈ cs, CtorOk f shapeOf enc g feeds env c) (j x s : Nat) (hj : cs[j]? = some (.shapeOf x))
    (hs : ts[j]? = some s) (v : V) (hv : TargetMeans f shapeOf g feeds env x (.ok v)) :
    TargetMeans f shapeOf g feeds env s (.ok (enc (shapeOf v))) := by
  obtain ⟨_, h1, h2⟩ := constructAll_ok hinv_empty (fun _ h => h) hcs
  exact hint_sound h1 hS hok x v hv s (h2 j x s hj hs)

/-- **C43** (partial: as `C43_shape_partial`) The same for the evaluator: in every evaluation of a list of targets that contains `x` and `shape(x)`, the
result for `shape(x)` is the shape of the result for `x`. -/
theorem C43_eval_partial (H : HintOps Op) (S : Sem Op V E W) (f : Op → List (OpInput V) → Option (Except E (List V))) (enc : List Nat → V)
    (cs : List (Ctor Op)) (g : Graph Op) (ts : List Nat) (feeds : List (Feed V)) (env : List V) (w : W) (fuel : Nat) (targets : List Nat)
    (res : EvalResult V E W) (hcs : constructAll H Graph.empty cs = .ok (g, ts))
    (hS : ShapeOps H f S.shapeOf enc) (hok : ∀ c ∈ cs, CtorOk f S.shapeOf enc g feeds env c) (ht : ∀ t ∈ targets, t < g.size)
    (hpure : NeededPure S g targets f) (hro : NeededReadOnly g targets) (h : eval S g fuel targets feeds env w = some (.ok res))
    (j x s : Nat) (hj : cs[j]? = some (.shapeOf x)) (hs : ts[j]? = some s) (a b : Nat) (ha : targets[a]? = some x) (hb : targets[b]? = some s) (v : V)
    (hv : res.results[a]? = some (.ok v)) : res.results[b]? = some (.ok (enc (S.shapeOf v))) := by
  obtain ⟨_, h1, h2⟩ := constructAll_ok hinv_empty (fun _ h => h) hcs
  have hm := (C06_results_are_meanings H.toOps S g fuel targets feeds env w res f h1.reach ht hpure hro h).1
  have hget : ∀ {ts : List Nat} {rs : List (Except E V)}, List.Forall₂ (fun t r => TargetMeans f S.shapeOf g feeds env t r) ts rs →
      ∀ (k t : Nat), ts[k]? = some t → ∃ r, rs[k]? = some r ∧ TargetMeans f S.shapeOf g feeds env t r := by
    intro ts rs hf
    induction hf with
    | nil => intro k t h; simp at h
    | cons h _ ih =>
      intro k t hk
      cases k with
      | zero => simp at hk; subst hk; exact ⟨_, rfl, h⟩
      | succ k => simp at hk; simpa using ih k t hk
  obtain ⟨r, e1, e2⟩ := hget hm a x ha
  rw [hv] at e1
  cases e1
  obtain ⟨r', e3, e4⟩ := hget hm b s hb
  rw [e3, targetMeans_unique e4 (hint_sound h1 hS hok x v e2 s (h2 j x s hj hs))]

/-- The calls satisfy the hypotheses of the theorems above, and the evaluation succeeds. -/
example : ∃ g ts res, constructAll shOps Graph.empty shCalls = .ok (g, ts) ∧ shCalls[5]? = some (.shapeOf 9) ∧ ts[5]? = some 8 ∧
    (∀ c ∈ shCalls, CtorOk shFun (fun a : Arr Int => a.shape) shEnc g [] [] c) ∧ NeededPure shSem g [9, 8] shFun ∧ NeededReadOnly g [9, 8] ∧
    eval shSem g 100 [9, 8] [] [] () = some (.ok res) ∧ ∃ y s, res.results = [.ok y, .ok s] ∧ y.shape = [2, 3] ∧ shElems s = [2, 3] := by
  obtain ⟨g, ts, hg⟩ : ∃ g ts, constructAll shOps Graph.empty shCalls = .ok (g, ts) := ⟨_, _, rfl⟩
  have hpure : ∀ targets, NeededPure shSem g targets shFun := fun _ a n _ _ => shSem_pure n.op
  have hro : ∀ targets, NeededReadOnly g targets := by
    rintro targets a vid _ ⟨n, hn, i, hi, hm, _⟩
    have : ∀ n ∈ g.nodes, ∀ i ∈ n.incoming, i.allowMut = false := by
      cases hg
      intro n hn i hi
      fin_cases hn <;> fin_cases hi <;> rfl
    rw [this n (List.mem_of_getElem? hn) i hi] at hm
    cases hm
  have hreach : Reachable shOps.toOps g := (constructAll_ok hinv_empty (fun _ h => h) hg).2.1.reach
  have hval : ∀ t ∈ [1, 4, 6, 7], ∃ v, TargetMeans shFun (fun a : Arr Int => a.shape) g [] [] t (.ok v) ∧
      (v.shape = [] ∨ v.shape = [2, 3]) := by
    obtain ⟨res, hres, y1, y2, y3, y4, hr, hy1, hy2, hy3, hy4⟩ : ∃ res, eval shSem g 100 [1, 4, 6, 7] [] [] () = some (.ok res) ∧
        ∃ y1 y2 y3 y4, res.results = [.ok y1, .ok y2, .ok y3, .ok y4] ∧ y1.shape = [2, 3] ∧ y2.shape = [] ∧ y3.shape = [2, 3] ∧ y4.shape = [2, 3] := by
      cases hg
      exact ⟨_, rfl, _, _, _, _, rfl, rfl, rfl, rfl, rfl⟩
    have hm := (C06_results_are_meanings shOps.toOps shSem g 100 [1, 4, 6, 7] [] [] () res shFun hreach (by cases hg; decide) (hpure _) (hro _) hres).1
    rw [hr] at hm
    cases hm with | cons h1 hm => cases hm with | cons h2 hm => cases hm with | cons h3 hm => cases hm with | cons h4 hm =>
    intro t ht
    fin_cases ht
    · exact ⟨y1, h1, .inr hy1⟩
    · exact ⟨y2, h2, .inl hy2⟩
    · exact ⟨y3, h3, .inr hy3⟩
    · exact ⟨y4, h4, .inr hy4⟩
  have hinf : ∀ a ∈ [1, 4, 6, 7], ∀ b ∈ [1, 4, 6, 7], ∀ va vb, TargetMeans shFun (fun a : Arr Int => a.shape) g [] [] a (.ok va) →
      TargetMeans shFun (fun a : Arr Int => a.shape) g [] [] b (.ok vb) → Inferable va.shape vb.shape := by
    intro a ha b hb va vb h1 h2
    obtain ⟨v1, e1, f1⟩ := hval a ha
    obtain ⟨v2, e2, f2⟩ := hval b hb
    cases targetMeans_unique h1 e1
    cases targetMeans_unique h2 e2
    rcases f1 with f1 | f1 <;> rcases f2 with f2 | f2 <;> rw [f1, f2] <;> refine ⟨by simp, by decide, by decide⟩
  have hbin : ∀ (f : Int → Int → Int) (xa xb : OpInput (Arr Int)) y ys, shFun (.bin f) [xa, xb] = some (.ok (y :: ys)) →
      CommonShape xa.val.shape xb.val.shape y.shape := by
    intro f xa xb y ys h
    simp only [shFun] at h
    cases hb : binForward f xa.val xb.val with
    | ok r => rw [hb] at h; cases h; exact binForward_common hb
    | error e => rw [hb] at h; cases e <;> cases h
  refine ⟨g, ts, _, hg, rfl, by cases hg; rfl, ?_, hpure _, hro _, by cases hg; rfl, _, _, rfl, rfl, rfl⟩
  intro c hc
  fin_cases hc
  · exact ⟨[2, 3], rfl, by rintro y ys ⟨⟩; rfl⟩
  · rintro y ys ⟨⟩; rfl
  · exact ⟨hbin _, hinf 1 (by simp) 4 (by simp)⟩
  · refine ⟨0, { id := 6 }, rfl, rfl, rfl, ?_⟩
    intro xs xi y ys h1 _ _ h2
    match xs, h1, h2 with
    | [x], h1, h2 => cases h1; cases h2; rfl
  · exact ⟨hbin _, hinf 6 (by simp) 7 (by simp)⟩
  · trivial

/-- The result of an arithmetic op has the common broadcast shape of its operands. -/
theorem C43_arithmetic_rule [Field R] (x0 x1 y : Arr R)
    (h : addOp x0 x1 = .ok y ∨ subOp x0 x1 = .ok y ∨ mulOp x0 x1 = .ok y ∨ divOp x0 x1 = .ok y) : CommonShape x0.shape x1.shape y.shape :=
  arithmetic_common h

example : ∃ y, divOp (ofFn [2, 1] (fun _ => (1 : ℚ))) (ofFn [3] (fun _ => 2)) = .ok y ∧ y.shape = [2, 3] := ⟨_, rfl, rfl⟩

/-- **C43** is violated by `flatten`, which records the shape of its input: the flattened array of shape `[2, 3]` has shape `[6]`, its shape tensor is the
vector `(2, 3)`. -/
theorem C43_flatten_violated : ∃ g ts res, constructAll shOps Graph.empty [.const [2, 3] (.arr (ofFn [2, 3] (fun _ => 1))), .scalar (.scalar (-1)),
      .like .reshape [{ id := 1 }, { id := 4 }] 1, .shapeOf 5] = .ok (g, ts) ∧ ts = [1, 4, 5, 0] ∧
    eval shSem g 100 [5, 0] [] [] () = some (.ok res) ∧
    ∃ y s, res.results = [.ok y, .ok s] ∧ y.shape = [6] ∧ s.shape = [2] ∧ shElems s = [2, 3] :=
  ⟨_, _, _, rfl, rfl, rfl, _, _, rfl, rfl, rfl, rfl⟩

/-- **C43** is violated by placeholders with an unknown dimension that is not the first one: a placeholder of shape `[2, -1]`, fed with an array
of shape `[2, 3]`, has the shape tensor `(2, -1)`. -/
theorem C43_placeholder_violated : ∃ g ts res, constructAll shOps Graph.empty [.placeholder "x" [2, -1], .shapeOf 2] = .ok (g, ts) ∧ ts = [2, 1] ∧
    eval shSem g 100 [2, 1] [⟨.name "x", ofFn [2, 3] (fun _ => 1)⟩] [] () = some (.ok res) ∧
    ∃ y s, res.results = [.ok y, .ok s] ∧ y.shape = [2, 3] ∧ shElems s = [2, -1] :=
  ⟨_, _, _, rfl, rfl, rfl, _, _, rfl, rfl, rfl⟩

/-- **C43** is violated by arithmetic ops on arrays with different numbers of dimensions: the sum of arrays of shapes `[2, 3]` and `[3]` has
shape `[2, 3]`, evaluation of its shape tensor fails. -/
theorem C43_rank_violated : ∃ g ts res, constructAll shOps Graph.empty [.const [2, 3] (.arr (ofFn [2, 3] (fun _ => 1))),
      .const [3] (.arr (ofFn [3] (fun _ => 1))), .binary (.bin (· + ·)) 1 3, .shapeOf 5] = .ok (g, ts) ∧ ts = [1, 3, 5, 4] ∧
    eval shSem g 100 [5, 4] [] [] () = some (.ok res) ∧ ∃ y, res.results = [.ok y, .error ()] ∧ y.shape = [2, 3] :=
  ⟨_, _, _, rfl, rfl, rfl, _, rfl, rfl⟩

/-- **C43** is violated by arithmetic ops on empty arrays: the sum of arrays of shapes `[1, 2]` and `[0, 2]` has shape `[0, 2]`, its shape tensor is
`(1, 2)`. -/
theorem C43_empty_violated : ∃ g ts res, constructAll shOps Graph.empty [.const [1, 2] (.arr (ofFn [1, 2] (fun _ => 1))),
      .const [0, 2] (.arr (ofFn [0, 2] (fun _ => 1))), .binary (.bin (· + ·)) 1 3, .shapeOf 5] = .ok (g, ts) ∧ ts = [1, 3, 5, 4] ∧
    eval shSem g 100 [5, 4] [] [] () = some (.ok res) ∧ ∃ y s, res.results = [.ok y, .ok s] ∧ y.shape = [0, 2] ∧ shElems s = [1, 2] :=
  ⟨_, _, _, rfl, rfl, rfl, _, _, rfl, rfl, rfl⟩

/-- A consequence of `C43_flatten_violated`: the gradient of `flatten(x) + b` with respect to `flatten(x)` is reduced to the recorded
shape (src/tensor_ops/binary_ops.rs:291-302), which panics for `x` of shape `[2, 3]`. -/
theorem C43_flatten_gradient_violated : maybeReduce (ofFn [6] (fun _ => (1 : ℚ))) [2, 3] = .error .panic := rfl

/-- **C43** is violated by the gradient of `concat` (src/tensor_ops/array_ops.rs:606), which records the shape of the first part for the gradients of all parts: for parts of sizes 1 and 2
the gradient for the second part (tensor 6) has shape `[2]`, its shape tensor is `(1)`. -/
theorem C43_concat_gradient_violated : ∃ g ts res, constructAll shOps Graph.empty [.const [1] (.arr (ofFn [1] (fun _ => 1))), .const [2] (.arr (ofFn [2] (fun _ => 1))),
      .const [3] (.arr (ofFn [3] (fun _ => 1))), .like (.concatGrad 0 1) [{ id := 5 }, { id := 1 }, { id := 3 }] 1, .shapeOf 6] = .ok (g, ts) ∧ ts = [1, 3, 5, 6, 0] ∧
    eval shSem g 100 [6, 0] [] [] () = some (.ok res) ∧
    ∃ y s, res.results = [.ok y, .ok s] ∧ y.shape = [2] ∧ shElems s = [1] :=
  ⟨_, _, _, rfl, rfl, rfl, _, _, rfl, rfl, rfl⟩

/-- **C43** is violated by the gradient of `gather` (src/tensor_ops/array_ops.rs:394), which records the shape of the indices for the gradient of the gathered array: for an array of shape
`[3, 1]` and two indices the gradient (tensor 6) has shape `[3, 1]`, its shape tensor is `(2)`. -/
theorem C43_gather_gradient_violated : ∃ g ts res, constructAll shOps Graph.empty [.const [2] (.arr (ofFn [2] (fun _ => 1))), .const [3, 1] (.arr (ofFn [3, 1] (fun _ => 1))),
      .const [2, 1] (.arr (ofFn [2, 1] (fun _ => 1))), .like (.gatherGrad 0) [{ id := 1 }, { id := 3 }, { id := 5 }] 1, .shapeOf 6] = .ok (g, ts) ∧ ts = [1, 3, 5, 6, 0] ∧
    eval shSem g 100 [6, 0] [] [] () = some (.ok res) ∧
    ∃ y s, res.results = [.ok y, .ok s] ∧ y.shape = [3, 1] ∧ shElems s = [2] :=
  ⟨_, _, _, rfl, rfl, rfl, _, _, rfl, rfl, rfl⟩

end Verif.Props
