import Verif.Lemmas.Gather
import Verif.Lemmas.Scalar
import Verif.Lemmas.ShapeHint
import Verif.Spec.Program

/-! Values of tensors of programs; tensors built by gradient functions. -/

namespace Verif.Prog
open Verif Verif.Graph Verif.Nd Verif.Hint Verif.Gradient Verif.Spec Verif.Eval

theorem evals_unique' {Op E V : Type} {S : Setting Op E V} {g : Graph Op} {t : Nat} {v v' : V} (h : Evals S g t v) (h' : Evals S g t v') : v = v' := by
  have := targetMeans_unique h.1 h'.1
  injection this

theorem size_one (n : Nat) : Nd.size [n] = n := by simp [Nd.size]

theorem toList_vec (l : List ℝ) : toList (vec l) = l := by
  apply List.ext_getElem
  · simp [toList, vec, ofFn, Nd.size]
  · intro k h1 h2
    simp only [toList, vec, ofFn, List.getElem_map, List.getElem_range, unflat, Nd.size, Nat.div_one]
    simp [h2]

theorem vec_shape (l : List ℝ) : (vec l).shape = [l.length] := rfl

theorem readShape_enc (s : List Nat) : readShape (encShape s) = .ok s := by
  unfold readShape
  rw [encShape, toList_vec, if_neg]
  · congr 1
    rw [List.map_map]
    conv_rhs => rw [← List.map_id s]
    apply List.map_congr_left
    intro n _
    simp
  · rintro ⟨r, hr, h⟩
    obtain ⟨n, _, rfl⟩ := List.mem_map.1 hr
    have : (0 : ℝ) ≤ n := Nat.cast_nonneg n
    linarith

theorem sem_ok {op : POp} {xs : List (OpInput (Arr ℝ))} {ys : List (Arr ℝ)} (h : op.sem xs = some (.ok ys)) : ∃ y, ys = y :: op.extra (xs.map OpInput.val) ∧ op.run (xs.map OpInput.val) = .ok y := by
  unfold POp.sem at h
  split at h
  · rename_i y hy; cases h; exact ⟨y, rfl, hy⟩
  · cases h
  · cases h

theorem sem_of_run {op : POp} {xs : List (OpInput (Arr ℝ))} {y : Arr ℝ} (h : op.run (xs.map OpInput.val) = .ok y) :
    op.sem xs = some (.ok (y :: op.extra (xs.map OpInput.val))) := by
  unfold POp.sem; rw [h]

variable {F : List (Feed (Arr ℝ))} {N : List (Arr ℝ)}

theorem shapeOps : ShapeOps hintOps POp.sem Arr.shape encShape where
  shape := fun x => sem_of_run rfl
  infer := fun xa xb a b s ha hb h => sem_of_run (by
    show POp.run .infer [xa.val, xb.val] = _
    simp only [POp.run, ha, hb, readShape_enc, bind, Except.bind, h])
  const := fun s => sem_of_run (by
    show Except.ok (vec ((s.map _).map _)) = Except.ok (encShape s)
    rw [List.map_map]; rfl)
  enc := fun s => by simp [encShape, vec_shape]

/-! ## Building tensors -/

theorem shape_grows {g g' : Graph POp} {x s : Nat} (h : Hint.shape hintOps g x = .ok (g', s)) :
    Grows g g' ∧ ((∃ n, g.nodes[x]? = some n ∧ n.shape = some s) ∨ IsApp g' s .shape [x]) := by
  simp only [Hint.shape, bind_ok] at h
  obtain ⟨n, hn, h⟩ := h
  have hn' := access_some.1 hn
  cases hs : n.shape with
  | some s' =>
    simp only [hs, Except.ok.injEq, Prod.mk.injEq] at h
    obtain ⟨rfl, rfl⟩ := h
    exact ⟨grows_refl _, .inl ⟨n, hn', hs⟩⟩
  | none =>
    simp only [hs] at h
    exact ⟨build_grows h, .inr (build_isApp h rfl rfl rfl)⟩

/-- The op and inputs of the tensor that a constructor call returns, for the calls occurring in gradients. -/
def ctorApp : Ctor POp → Option (POp × List Incoming)
  | .plain op ins => some (op, ins)
  | .like op ins _ => some (op, ins)
  | .binary op a b => some (op, [inp a, inp b])
  | .sized op ins _ => some (op, ins)
  | .scalar op => some (op, [])
  | .const _ op => some (op, [])
  | _ => none

theorem construct_app {g g' : Graph POp} {c : Ctor POp} {t : Nat} {op : POp} {xs : List Nat} (h : construct hintOps g c = .ok (g', t))
    (hc : ctorApp c = some (op, xs.map inp)) : Grows g g' ∧ IsApp g' t op xs := by
  cases c with
  | plain op' ins =>
    simp only [ctorApp, Option.some.injEq, Prod.mk.injEq] at hc
    obtain ⟨rfl, rfl⟩ := hc
    exact ⟨build_grows h, build_isApp h rfl rfl rfl⟩
  | like op' ins x =>
    simp only [ctorApp, Option.some.injEq, Prod.mk.injEq] at hc
    obtain ⟨rfl, rfl⟩ := hc
    simp only [construct, bind_ok] at h
    obtain ⟨⟨g1, s⟩, h1, h2⟩ := h
    exact ⟨(shape_grows h1).1.trans (build_grows h2), build_isApp h2 rfl rfl rfl⟩
  | binary op' a b =>
    simp only [ctorApp, Option.some.injEq, Prod.mk.injEq] at hc
    obtain ⟨rfl, hc⟩ := hc
    simp only [construct, bind_ok] at h
    obtain ⟨⟨g1, sa⟩, h1, ⟨g2, sb⟩, h2, ⟨g3, s⟩, h3, h4⟩ := h
    exact ⟨(((shape_grows h1).1.trans (shape_grows h2).1).trans (build_grows h3)).trans (build_grows h4), build_isApp h4 hc rfl rfl⟩
  | sized op' ins x =>
    simp only [ctorApp, Option.some.injEq, Prod.mk.injEq] at hc
    obtain ⟨rfl, rfl⟩ := hc
    exact ⟨build_grows h, build_isApp h rfl rfl rfl⟩
  | scalar op' =>
    simp only [ctorApp, Option.some.injEq, Prod.mk.injEq] at hc
    obtain ⟨rfl, hc⟩ := hc
    simp only [construct, bind_ok] at h
    obtain ⟨⟨g1, s⟩, h1, ⟨g2, s2⟩, h2, h3⟩ := h
    exact ⟨((build_grows h1).trans (build_grows h2)).trans (build_grows h3), build_isApp h3 hc rfl rfl⟩
  | const _ op' =>
    simp only [ctorApp, Option.some.injEq, Prod.mk.injEq] at hc
    obtain ⟨rfl, hc⟩ := hc
    simp only [construct, bind_ok] at h
    obtain ⟨⟨g1, s⟩, h1, h2⟩ := h
    exact ⟨(build_grows h1).trans (build_grows h2), build_isApp h2 hc rfl rfl⟩
  | var _ => cases hc
  | placeholder _ _ => cases hc
  | shapeOf _ => cases hc
  | fixed _ _ => cases hc

/-- The recorded shape tensor of `x`, if there is one, holds the shape `s`. -/
def Hinted (S : Setting POp Unit (Arr ℝ)) (g : Graph POp) (x : Nat) (s : List Nat) : Prop :=
  ∀ n t, g.nodes[x]? = some n → n.shape = some t → Evals S g t (encShape s)

theorem Hinted.grows {g g' : Graph POp} (h : Grows g g') (hc : InputsExist g) {x : Nat} {s : List Nat} (hx : x < g.nodes.length)
    (hh : Hinted (setting F N) g x s) : Hinted (setting F N) g' x s := by
  intro n t hn ht
  have : g.nodes[x]? = some g.nodes[x] := List.getElem?_eq_getElem hx
  rw [h.1 _ _ this] at hn
  cases hn
  exact Evals.mono h hc (hh _ t this ht)

theorem evals_lt {Op E V : Type} {S : Setting Op E V} {g : Graph Op} {t : Nat} {v : V} (h : Evals S g t v) : t < g.nodes.length := by
  have : ∃ n, g.nodes[t]? = some n := by
    cases h.1 with
    | placeholder h _ _ => exact ⟨_, h⟩
    | variable_ h _ _ => exact ⟨_, h⟩
    | result h _ => cases h with
      | run h _ _ _ _ => exact ⟨_, h⟩
  obtain ⟨n, hn⟩ := this
  exact (List.getElem?_eq_some_iff.1 hn).1

theorem evals_run {g : Graph POp} {t : Nat} {op : POp} {xs : List Nat} {vs : List (Arr ℝ)} {v : Arr ℝ} (ha : IsApp g t op xs)
    (hx : List.Forall₂ (Evals (setting F N) g) xs vs) (hr : op.run vs = .ok v) : Evals (setting F N) g t v :=
  evals_outputs ha hx (ys := op.extra vs) fun xs hx => by subst hx; exact sem_of_run hr

/-- The tensor selecting output `n` of a tensor (`nth_tensor`). -/
theorem evals_nth {g : Graph POp} {t y n : Nat} {op : POp} {xs : List Nat} {vs : List (Arr ℝ)} {yv v : Arr ℝ} (ha : IsApp g y op xs)
    (hx : List.Forall₂ (Evals (setting F N) g) xs vs) (hr : op.run vs = .ok yv) (hn : (yv :: op.extra vs)[n]? = some v)
    {nd : Node POp} (ht : g.nodes[t]? = some nd) (ho : nd.op = .ident) (hin : nd.incoming = [{ id := y, selector := n }]) (h1 : nd.placeholderName = none)
    (h2 : nd.variableId = none) : Evals (setting F N) g t v := by
  have hm := means_app (ys := yv :: op.extra vs) ha hx fun xs hx => by subst hx; exact sem_of_run hr
  obtain ⟨ny, hy, _, _, hp, hv⟩ := ha
  refine ⟨.result (ys := [v]) (.run (cv := fun _ => .ok (yv :: op.extra vs)) (xs := [⟨.nonVariable, v⟩]) ht ⟨nd, ht, h1, h2⟩ ?_ ?_ ?_) rfl, ?_⟩
  · rintro b ⟨⟨n', hn', i, hi, rfl⟩, _⟩
    rw [ht] at hn'; cases hn'
    rw [hin] at hi
    rw [List.mem_singleton.1 hi]
    exact hm
  · rw [hin]
    exact .cons (.result ⟨ny, hy, hp, hv⟩ rfl hn) .nil
  · rw [ho]; rfl
  · exact fun n' hn' _ => by rw [ht] at hn'; cases hn'; exact h1

/-- One constructor call in a gradient function. -/
theorem mk_evals {g g' : Graph POp} {c : Ctor POp} {t : Nat} (h : mk g c = .ok (g', t)) (hc : InputsExist g) (op : POp) (xs : List Nat) (vs : List (Arr ℝ))
    (v : Arr ℝ) (ha : ctorApp c = some (op, xs.map inp)) (hx : List.Forall₂ (Evals (setting F N) g) xs vs) (hr : op.run vs = .ok v) :
    Grows g g' ∧ InputsExist g' ∧ Evals (setting F N) g' t v := by
  obtain ⟨h1, h2⟩ := construct_app (lift_ok.1 h) ha
  exact ⟨h1, h1.2 hc, evals_run h2 (hx.imp fun _ _ h => Evals.mono h1 hc h) hr⟩

/-- One call of `shape` in a gradient function. -/
theorem mkShape_evals {g g' : Graph POp} {x s : Nat} {v : Arr ℝ} (h : mkShape g x = .ok (g', s)) (hc : InputsExist g)
    (hx : Evals (setting F N) g x v) (hh : Hinted (setting F N) g x v.shape) :
    Grows g g' ∧ InputsExist g' ∧ Evals (setting F N) g' s (encShape v.shape) := by
  obtain ⟨h1, h2⟩ := shape_grows (lift_ok.1 h)
  refine ⟨h1, h1.2 hc, ?_⟩
  rcases h2 with ⟨n, hn, hs⟩ | h2
  · exact Evals.mono h1 hc (hh n s hn hs)
  · exact evals_run h2 (.cons (Evals.mono h1 hc hx) .nil) rfl

end Verif.Prog
