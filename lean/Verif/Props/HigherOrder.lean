import Verif.Lemmas.HoReadme
import Verif.Lemmas.HoTotal
import Verif.Props.Program

/-! # Property theorems about gradients of gradients: C62 -/

namespace Verif.Props
open Verif Verif.Spec Verif.Gradient Verif.Graph Verif.Eval Verif.Nd Verif.Prog

/-! ## C62 Gradients of gradients -/

/-- **C62** Values. A program makes calls one after the other, and any number of them are calls of `grad`, also on results of earlier calls of `grad`. If all calls return, then evaluating
any of their results, at every point `I` at which the program is considered, returns the array that `meaning` says: for a call of `grad` the partial derivatives of the sum of the
elements of the `ys`, for other calls the usual function of arrays. -/
theorem C62_values_partial (pick : Graph POp → List Nat → Nat) (hpick : PicksMax pick) (fuel : Nat) (l : List Call) (g : Graph POp) (ids : List Nat)
    (h : execCalls pick fuel l = some (.ok (g, ids))) (hs : (meaning l).wellScoped) (I : Point) (hd : (meaning l).dom I) :
    ids.length = ((meaning l).value I).length ∧
      ∀ k t, ids[k]? = some t → ∃ v, Same v ((meaning l).at_ I k) ∧
        ∃ fuel0, ∀ fuel', fuel0 ≤ fuel' → ∃ res, eval progSem g fuel' [t] (named I.feeds) I.env () = some (.ok res) ∧ res.results = [.ok v] := by
  have hr : RunOk true g ids (meaning l) := runOk_empty.execFrom hpick h hs fun c _ => allowed_all c
  refine ⟨by rw [hr.vlen, hr.leavesOk.len], fun k t hk => ?_⟩
  obtain ⟨hlt, he⟩ := List.getElem?_eq_some_iff.1 hk
  obtain ⟨v, h1, h2⟩ := hr.vals I hd k (by rw [← hr.leavesOk.len]; exact hlt)
  rw [List.getD_eq_getElem?_getD, hk] at h1
  exact ⟨v, h2, evaluates hr.leavesOk.reach (hr.inv I hd).old h1⟩

/-- **C62** The functions that are differentiated are differentiable, so that the partial derivatives of `C62_values_partial` exist: for every call `grad(ys, xs)` in the program, the sum of the
elements of the `ys` is differentiable when an element of the variable or placeholder `x` is changed. Also, the program is considered at all points near `I`. -/
theorem C62_differentiable_partial (pick : Graph POp → List Nat → Nat) (hpick : PicksMax pick) (fuel : Nat) (l l' : List Call) (ys xs : List Nat) (g : Graph POp) (ids : List Nat)
    (h : execCalls pick fuel (l ++ .grad ys xs :: l') = some (.ok (g, ids))) (hs : (meaning (l ++ .grad ys xs :: l')).wellScoped) (I : Point)
    (hd : (meaning (l ++ .grad ys xs :: l')).dom I) :
    (∀ x ∈ xs, ∃ leaf, (meaning l).leaves[x]? = some (some leaf) ∧
      ∀ i, InB i ((meaning l).at_ I x).shape → DifferentiableAt ℝ (fun u => (meaning l).sum ys (I.nudge leaf i u)) 0) ∧
    ∀ leaf i, ∀ᶠ u in nhds (0 : ℝ), (meaning (l ++ .grad ys xs :: l')).dom (I.nudge leaf i u) := by
  have hr : RunOk true g ids (meaning (l ++ .grad ys xs :: l')) := runOk_empty.execFrom hpick h hs fun c _ => allowed_all c
  refine ⟨fun x hx => ?_, hr.near I hd⟩
  obtain ⟨g1, ids1, h1, h2⟩ := execFrom_append h
  have e : meaning (l ++ .grad ys xs :: l') = l'.foldl Meaning.add ((meaning l).add (.grad ys xs)) := by simp [meaning, List.foldl_append]
  rw [e] at hs hd
  have hs1 : ((meaning l).add (.grad ys xs)).wellScoped := wellScoped_of_foldl hs
  have hd1 : (meaning l).dom I := dom_of_foldl (M := (meaning l).add (.grad ys xs)) hd
  have hr1 : RunOk true g1 ids1 (meaning l) := runOk_empty.execFrom hpick h1 hs1.1 fun c _ => allowed_all c
  simp only [Prog.execFrom] at h2
  split at h2
  · cases h2
  · cases h2
  · rename_i g2 ids2 hc
    simp only [Call.exec] at hc
    split at hc
    · cases hc
    · cases hc
    · rename_i r hgr
      obtain ⟨t, _, w, leaf, _, k1, k2, k3⟩ := forall₂_mem_left (hr1.grad_vals hpick hgr hs1 hd1) hx
      exact ⟨leaf, k1, fun i hi => (k3 i (by rw [k2]; exact hi)).differentiableAt⟩

/-- **C62** The README: `gy` is 3, `gx` is `4 * x` (so 8 at `x = 2`) and `ggx`, the gradient of `gx`, is 4, for all numbers `x` and `y`. -/
theorem C62_readme (pick : Graph POp → List Nat → Nat) (hpick : PicksMax pick) (fuel : Nat) (g : Graph POp) (ids : List Nat)
    (h : execCalls pick fuel readmeCalls = some (.ok (g, ids))) (x y : Arr ℝ) (hx : x.shape = []) (hy : y.shape = []) :
    ∃ gy gx ggx, ids[10]? = some gy ∧ ids[11]? = some gx ∧ ids[12]? = some ggx ∧
      ∀ t v, (t, v) ∈ [(gy, 3), (gx, 4 * x.get []), (ggx, 4)] → ∃ w : Arr ℝ, w.shape = [] ∧ w.get [] = v ∧
        ∃ fuel0, ∀ fuel', fuel0 ≤ fuel' → ∃ res, eval progSem g fuel' [t] (named [("x", x), ("y", y)]) [] () = some (.ok res) ∧ res.results = [.ok w] := by
  obtain ⟨hlen, hv⟩ := C62_values_partial pick hpick fuel _ g ids h readme_scoped (readmePoint x y) (readme_dom x y hx hy)
  have hlen : ids.length = 13 := hlen
  have key : ∀ {k : Nat} {c : ℝ} (hk : k < ids.length), Same (ofFn [] fun _ => c) ((meaning readmeCalls).at_ (readmePoint x y) k) → ∃ w : Arr ℝ, w.shape = [] ∧ w.get [] = c ∧
      ∃ fuel0, ∀ fuel', fuel0 ≤ fuel' → ∃ res, eval progSem g fuel' [ids[k]] (named [("x", x), ("y", y)]) [] () = some (.ok res) ∧ res.results = [.ok w] := by
    intro k c hk hs
    obtain ⟨v, h1, h2⟩ := hv k ids[k] (List.getElem?_eq_getElem hk)
    have hsh : v.shape = [] := by rw [h1.1]; exact hs.1.symm
    exact ⟨v, hsh, by rw [h1.2 [] (by rw [hsh]; exact .nil)]; exact (hs.2 [] .nil).symm, h2⟩
  refine ⟨ids[10], ids[11], ids[12], List.getElem?_eq_getElem _, List.getElem?_eq_getElem _, List.getElem?_eq_getElem _, fun t v htv => ?_⟩
  simp only [List.mem_cons, Prod.mk.injEq, List.not_mem_nil, or_false] at htv
  rcases htv with ⟨rfl, rfl⟩ | ⟨rfl, rfl⟩ | ⟨rfl, rfl⟩
  · exact key _ (readme_gy x y hx hy)
  · exact key _ (readme_gx x y hx hy)
  · exact key _ (readme_ggx x y hx hy)

-- The hypotheses of the three theorems hold for this program at all numbers.
example (x y : Arr ℝ) (hx : x.shape = []) (hy : y.shape = []) : (∃ r, execCalls demoPick 60 readmeCalls = some (.ok r)) ∧ PicksMax (demoPick (Op := POp)) ∧
    (meaning readmeCalls).wellScoped ∧ (meaning readmeCalls).dom (readmePoint x y) ∧ ∃ l', readmeCalls = readmeCalls.take 11 ++ .grad [9] [0] :: l' :=
  ⟨⟨_, rfl⟩, demoPick_max, readme_scoped, readme_dom x y hx hy, _, rfl⟩

/-- **C62** The calls return. Given enough iterations of the loops in `grad`, a program that is considered at some point, whose calls of `grad` have an objective, and which does not apply `abs` and
`sign` (see `C62_abs_violated`), runs to its end unless the graph gets too large: no gradient is missing, however deeply calls of `grad` are nested.
A program never gets too large if `room l`, which is found by counting its calls, is at most 500000. -/
theorem C62_returns_partial (pick : Graph POp → List Nat → Nat) (hpick : PicksMax pick) (l : List Call) (hs : (meaning l).wellScoped) (I : Point) (hd : (meaning l).dom I)
    (hne : ∀ ys xs, .grad ys xs ∈ l → ys ≠ []) (hdim : ∀ name d, .op (.placeholder name d) ∈ l → ∀ n ∈ d, n = -1 ∨ 0 < n)
    (hop : ∀ op x, .op (.un op x) ∈ l → op ≠ .abs ∧ op ≠ .sign) :
    ∃ N res, (∀ fuel, N ≤ fuel → execCalls pick fuel l = some res) ∧ ((∃ g ids, res = .ok (g, ids) ∧ g.nodes.length ≤ room l) ∨ res = .error (.graph .graphTooLarge) ∧ 500000 < room l) := by
  have hall : ∀ c ∈ l, c.Allowed false := fun c hc => by
    unfold Call.Allowed
    split
    · exact .inr (hop _ _ hc)
    · trivial
  obtain ⟨N, r, h, hN⟩ := runOk_empty.execFrom_total hpick hs hd hall hne hdim
  exact ⟨N, r, hN, h.imp (fun ⟨v, e, h⟩ => ⟨v.1, v.2, e, h⟩) id⟩

-- The hypotheses hold for the README, and the graph of a program with two calls of `grad` does not get too large.
example : room [.op (.var 0), .op (.un .tanh 0), .grad [1] [0], .grad [2] [0]] = 11360 := rfl
example (x y : Arr ℝ) (hx : x.shape = []) (hy : y.shape = []) : PicksMax (demoPick (Op := POp)) ∧ (meaning readmeCalls).wellScoped ∧ (meaning readmeCalls).dom (readmePoint x y) ∧
    (∀ ys xs, .grad ys xs ∈ readmeCalls → ys ≠ []) ∧ (∀ name d, .op (.placeholder name d) ∈ readmeCalls → ∀ n ∈ d, n = -1 ∨ 0 < n) ∧
    (∀ op x, .op (.un op x) ∈ readmeCalls → op ≠ .abs ∧ op ≠ .sign) := by
  refine ⟨demoPick_max, readme_scoped, readme_dom x y hx hy, ?_, ?_, ?_⟩
  · intro ys xs h
    simp [readmeCalls] at h
    rcases h with ⟨rfl, _⟩ | ⟨rfl, _⟩ | ⟨rfl, _⟩ <;> simp
  · intro name d h
    simp [readmeCalls] at h
    rcases h with ⟨_, rfl⟩ | ⟨_, rfl⟩ <;> simp
  · intro op x h
    simp [readmeCalls] at h

/-- `grad(&[op(x)], &[x])`, and `grad` of its result. -/
def twiceCalls (op : EOp) : List Call := [.op (.var 0), .op (.un op 0), .grad [1] [0], .grad [2] [0]]

/-- **C62** (`abs`), the code violates the property: the gradient of the gradient of `abs` panics, because `sign`, which occurs in the gradient, reports no gradient, and so `x` is on the
path of differentiation but gets no gradient. At all non-empty arrays without zeros the gradient should be an array of zeros. -/
theorem C62_abs_violated : execCalls demoPick 20 (twiceCalls .abs) = some (.error .noGradient) ∧ (meaning (twiceCalls .abs)).wellScoped ∧
    ∀ x : Arr ℝ, (∀ d ∈ x.shape, 0 < d) → (∀ i, InB i x.shape → x.get i ≠ 0) → (meaning (twiceCalls .abs)).dom ⟨[], [x]⟩ ∧
      ∀ i, InB i x.shape → HasDerivAt (deriv EOp.abs.f) 0 (x.get i) := by
  refine ⟨by cbv, ?_, fun x hp h0 => ⟨?_, fun i hi => ?_⟩⟩
  · simp [meaning, twiceCalls, Meaning.add, leafOf, Stmt.args]
    exact ⟨⟨[.variable_ 0], .cons rfl .nil, by simp⟩, [.variable_ 0], .cons rfl .nil, by simp⟩
  · exact ⟨⟨trivial, Nat.zero_lt_one⟩, hp, fun h => (by cases h), h0⟩
  · rcases lt_or_gt_of_ne (h0 i hi) with h | h
    · have : EOp.abs.f =ᶠ[nhds (x.get i)] fun a => -a := by
        filter_upwards [gt_mem_nhds h] with a ha
        exact abs_of_neg ha
      refine HasDerivAt.congr_of_eventuallyEq ?_ this.deriv
      simpa using hasDerivAt_const (x.get i) (-1 : ℝ)
    · have : EOp.abs.f =ᶠ[nhds (x.get i)] fun a => a := by
        filter_upwards [lt_mem_nhds h] with a ha
        exact abs_of_pos ha
      refine HasDerivAt.congr_of_eventuallyEq ?_ this.deriv
      simpa using hasDerivAt_const (x.get i) (1 : ℝ)

/-- **C62** (`elu`, `clip`), the code violates the property: their second derivatives panic in the same way, because `ELUGrad` and `ClipGrad` report no gradients. That of `elu` exists and is not zero
below zero, that of `clip` exists between the bounds. -/
theorem C62_elu_clip_violated (alpha lo hi : ℝ) : execCalls demoPick 20 (twiceCalls (.elu alpha)) = some (.error .noGradient) ∧
    execCalls demoPick 20 (twiceCalls (.clip lo hi)) = some (.error .noGradient) ∧
    (∀ u < 0, HasDerivAt (deriv (EOp.elu alpha).f) (alpha * Real.exp u) u) ∧ ∀ u, lo < u → u < hi → HasDerivAt (deriv (EOp.clip lo hi).f) 0 u := by
  refine ⟨by cbv, by cbv, fun u hu => ?_, fun u h1 h2 => ?_⟩
  · have : (EOp.elu alpha).f =ᶠ[nhds u] fun a => alpha * (Real.exp a - 1) := by
      filter_upwards [gt_mem_nhds hu] with a ha
      exact if_neg (not_lt.2 ha.le)
    refine HasDerivAt.congr_of_eventuallyEq ?_ this.deriv
    have e : deriv (fun a => alpha * (Real.exp a - 1)) = fun a => alpha * Real.exp a := by
      funext a
      exact (((Real.hasDerivAt_exp a).sub_const 1).const_mul alpha).deriv
    rw [e]
    exact (Real.hasDerivAt_exp u).const_mul alpha
  · have : (EOp.clip lo hi).f =ᶠ[nhds u] fun a => a := by
      filter_upwards [lt_mem_nhds h1, gt_mem_nhds h2] with a ha hb
      show max (min a hi) lo = a
      rw [min_eq_left hb.le, max_eq_left ha.le]
    refine HasDerivAt.congr_of_eventuallyEq ?_ this.deriv
    simpa using hasDerivAt_const u (1 : ℝ)

end Verif.Props
