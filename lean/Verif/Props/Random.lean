import Mathlib.Analysis.Calculus.Deriv.Add
import Verif.Lemmas.Random
import Verif.Spec.Gradient
import Verif.Lemmas.ShapeHint
import Verif.Props.Eval

/-! # Property theorems about random arrays and dropout: C56

`sample` is any distribution together with any generator, `s` any state of the generator. -/

namespace Verif.Props
open Verif Verif.Nd Verif.Rand Verif.Spec Verif.Eval Verif.Graph Relation
variable {σ R : Type}

/-- **C56** A random tensor has the shape given by its input; its elements are the next samples of the generator in row-major order, and the generator
has then drawn exactly as many samples as the array has elements. -/
theorem C56_random_array [Zero R] (toUsize : R → Option Nat) (sample : σ → R × σ) (sh : Arr R) (shape : List Nat) (s : σ)
    (hs : (toList sh).map toUsize = shape.map some) :
    ∃ a, randomOp toUsize sample sh s = .ok (a, after sample shape.prod s) ∧ a.shape = shape ∧
      ∀ i, InB i shape → a.get i = nthSample sample s (rowPos shape i) := by
  have h : ∀ (l : List R) (t : List Nat), l.map toUsize = t.map some → l.mapM (fun r => unwrap (toUsize r)) = .ok t := by
    intro l
    induction l with
    | nil => intro t h; cases t with
      | nil => rfl
      | cons => cases h
    | cons r l ih =>
      intro t h
      cases t with
      | nil => cases h
      | cons n t =>
        simp only [List.map_cons, List.cons.injEq] at h
        rw [List.mapM_cons, h.1, ih t h.2]
        rfl
  refine ⟨(genRandomArray sample shape s).1, ?_, rfl, fun i hi => ?_⟩
  · rw [randomOp, asShape, h _ _ hs]
    show Except.ok (genRandomArray sample shape s) = _
    rw [← size_eq_prod, ← fill_state]
    rfl
  · rw [gen_get sample shape s hi, rowPos_eq hi]

/-- A shape array `[2, 3]` of rationals and a generator that counts. -/
example : ((toList (ofFn [2] (fun i => if i = [0] then (2 : ℚ) else 3))).map fun q => if 0 ≤ q then some q.num.toNat else none) = [2, 3].map some ∧
    nthSample (fun s : Nat => ((s : ℚ), s + 1)) 5 (rowPos [2, 3] [1, 0]) = 8 := ⟨rfl, rfl⟩

/-- **C56** A shape input with an entry that is not a size (a negative number, say) panics. -/
theorem C56_bad_shape [Zero R] (toUsize : R → Option Nat) (sample : σ → R × σ) (sh : Arr R) (s : σ) (r : R) (hr : r ∈ toList sh)
    (hn : toUsize r = none) : randomOp toUsize sample sh s = .error .panic := by
  have h : ∀ l : List R, r ∈ l → l.mapM (fun r => unwrap (toUsize r)) = .error Fail.panic := by
    intro l
    induction l with
    | nil => intro h; cases h
    | cons a l ih =>
      intro h
      rw [List.mapM_cons]
      cases ha : toUsize a with
      | none => rfl
      | some n =>
        rcases List.mem_cons.1 h with rfl | h
        · rw [hn] at ha; cases ha
        · rw [ih h]; rfl
  rw [randomOp, asShape, h _ hr]
  rfl

example : (-1 : ℚ) ∈ toList (ofFn [2] (fun i => if i = [0] then (2 : ℚ) else -1)) ∧ (if 0 ≤ (-1 : ℚ) then some 1 else none) = none := by
  refine ⟨?_, rfl⟩
  show (-1 : ℚ) ∈ [2, -1]
  simp

/-- **C56** Evaluating a random tensor again draws fresh samples: the elements of the `j`-th evaluation follow those of all earlier ones in the sequence of samples,
so no sample is used twice. -/
theorem C56_fresh_draws [Zero R] (sample : σ → R × σ) (shapes : List (List Nat)) (s : σ) (j : Nat) (shape : List Nat) (hj : shapes[j]? = some shape) :
    ∃ a, (draws sample shapes s)[j]? = some a ∧ a.shape = shape ∧
      ∀ i, InB i shape → a.get i = nthSample sample s (((shapes.take j).map List.prod).sum + rowPos shape i) := by
  induction shapes generalizing s j with
  | nil => simp at hj
  | cons t shapes ih =>
    cases j with
    | zero =>
      simp at hj
      subst hj
      exact ⟨_, rfl, rfl, fun i hi => by rw [gen_get sample t s hi, rowPos_eq hi]; simp⟩
    | succ j =>
      obtain ⟨a, h1, h2, h3⟩ := ih (genRandomArray sample t s).2 j (by simpa using hj)
      refine ⟨a, h1, h2, fun i hi => ?_⟩
      have e : (genRandomArray sample t s).2 = after sample t.prod s := by rw [← size_eq_prod]; exact fill_state _ _ _
      rw [h3 i hi, e]
      unfold nthSample
      rw [← after_add, List.take_succ_cons, List.map_cons, List.sum_cons, Nat.add_assoc]

/-- Three evaluations with different shapes: the third starts behind the 6 and 4 samples of the others. -/
example : [[2, 3], [4], [2]][2]? = some [2] ∧ ((draws (fun s : Nat => ((s : ℤ), s + 1)) [[2, 3], [4], [2]] 0).map toList)[2]? = some [10, 11] := ⟨rfl, rfl⟩

/-- **C56** Dropout while training: the outputs are the input times a mask, and the mask; the mask is 1 where the uniform sample is below one minus the ratio, and 0
elsewhere; one sample per element is drawn. -/
theorem C56_dropout_train (ratio : ℝ) (uniform : σ → ℝ × σ) (x : Arr ℝ) (s : σ) :
    ∃ y m, dropout true ratio uniform x s = (.ok [y, m], after uniform x.shape.prod s) ∧ y.shape = x.shape ∧ m.shape = x.shape ∧
      ∀ i, InB i x.shape → m.get i = (if nthSample uniform s (rowPos x.shape i) < 1 - ratio then 1 else 0) ∧ y.get i = m.get i * x.get i := by
  obtain ⟨y, hy, hs, he⟩ := zip_same (f := (· * · : ℝ → ℝ → ℝ)) (a := (bernoulli uniform (1 - ratio) x.shape s).1) (b := x) rfl
  refine ⟨y, (bernoulli uniform (1 - ratio) x.shape s).1, ?_, hs, rfl, fun i hi => ⟨?_, he i hi⟩⟩
  · simp only [dropout, if_true, hy]
    have : (bernoulli uniform (1 - ratio) x.shape s).2 = after uniform x.shape.prod s := by
      rw [← after_coin uniform (1 - ratio), ← size_eq_prod]
      exact fill_state _ _ _
    rw [this]
    rfl
  · rw [bernoulli, gen_get _ _ _ hi, nth_coin, rowPos_eq hi]

/-- With ratio 1/4 the sample 1/2 keeps an element, the sample 3/4 drops it. -/
example : ∃ y m s', dropout true (1 / 4) stream (ofFn [2] fun _ => (5 : ℝ)) (fun n => if n = 0 then 1 / 2 else 3 / 4) = (.ok [y, m], s') ∧
    y.get [0] = 5 ∧ y.get [1] = 0 := by
  obtain ⟨y, m, h1, _, _, h4⟩ := C56_dropout_train (1 / 4) stream (ofFn [2] fun _ => (5 : ℝ)) (fun n => if n = 0 then 1 / 2 else 3 / 4)
  refine ⟨y, m, _, h1, ?_, ?_⟩
  · obtain ⟨a, b⟩ := h4 [0] (by simp [InB, ofFn])
    rw [nth_stream] at a
    rw [b, a, if_pos (by rw [show rowPos (ofFn [2] fun _ => (5 : ℝ)).shape [0] = 0 from rfl]; norm_num)]
    simp [ofFn]
  · obtain ⟨a, b⟩ := h4 [1] (by simp [InB, ofFn])
    rw [nth_stream] at a
    rw [b, a, if_neg (by rw [show rowPos (ofFn [2] fun _ => (5 : ℝ)).shape [1] = 1 from rfl]; norm_num)]
    simp

/-- **C56** Dropout outside of training scales the input and draws nothing. -/
theorem C56_dropout_test (ratio : ℝ) (uniform : σ → ℝ × σ) (x : Arr ℝ) (s : σ) :
    ∃ y, dropout false ratio uniform x s = (.ok [y], s) ∧ y.shape = x.shape ∧ ∀ i, InB i x.shape → y.get i = (1 - ratio) * x.get i :=
  ⟨_, rfl, rfl, fun _ _ => mul_comm _ _⟩

/-- **C56** The output outside of training is the mean of the output while training: averaged over the uniform sample that decides about it, each element of
the latter is the element of the former. `u` are the samples, of which the one that belongs to position `i` varies over the unit interval. -/
theorem C56_test_is_mean (ratio : ℝ) (h0 : 0 ≤ ratio) (h1 : ratio ≤ 1) (x : Arr ℝ) (u : Nat → ℝ) (i : List Nat) (hi : InB i x.shape) :
    ∃ (Y : ℝ → Arr ℝ) (m : ℝ → Arr ℝ) (y : Arr ℝ),
      (∀ t, (dropout true ratio stream x (Function.update u (rowPos x.shape i) t)).1 = .ok [Y t, m t]) ∧
      (dropout false ratio stream x u).1 = .ok [y] ∧ ∫ t in (0 : ℝ)..1, (Y t).get i = y.get i := by
  choose Y m h hs hm he using fun t => C56_dropout_train ratio stream x (Function.update u (rowPos x.shape i) t)
  obtain ⟨y, hy, _, hye⟩ := C56_dropout_test ratio stream x u
  refine ⟨Y, m, y, fun t => by rw [h t], by rw [hy], ?_⟩
  have e : ∀ t, (Y t).get i = Set.indicator (Set.Iio (1 - ratio)) (fun _ => x.get i) t := by
    intro t
    obtain ⟨a, b⟩ := he t i hi
    rw [nth_stream, Function.update_self] at a
    rw [b, a]
    by_cases hlt : t < 1 - ratio <;> simp [hlt]
  simp only [e]
  rw [hye i hi, intervalIntegral.integral_of_le zero_le_one, MeasureTheory.integral_indicator measurableSet_Iio,
    MeasureTheory.Measure.restrict_restrict measurableSet_Iio]
  simp only [MeasureTheory.integral_const, smul_eq_mul]
  congr 1
  have : Set.Iio (1 - ratio) ∩ Set.Ioc (0 : ℝ) 1 = Set.Ioo 0 (1 - ratio) := by
    ext t
    simp only [Set.mem_inter_iff, Set.mem_Iio, Set.mem_Ioc, Set.mem_Ioo]
    constructor
    · rintro ⟨a, b, _⟩; exact ⟨b, a⟩
    · rintro ⟨a, b⟩; exact ⟨b, a, by linarith⟩
  rw [this]
  simp [MeasureTheory.Measure.real]
  linarith

example : (0 : ℝ) ≤ 1 / 4 ∧ (1 / 4 : ℝ) ≤ 1 ∧ InB [1, 2] (ofFn [2, 3] fun _ => (5 : ℝ)).shape := by
  refine ⟨by norm_num, by norm_num, ?_⟩
  simp [InB, ofFn]

/-- **C56** For every mask the tensor that dropout reports as the gradient is the gradient of multiplying with this mask. -/
theorem C56_dropout_gradient (x m gy : Arr ℝ) (hm : m.shape = x.shape) (hg : gy.shape = x.shape) :
    ∃ g, dropoutGrad gy m = .ok g ∧ IsGradient (fun x => zipOp (· * ·) m x) x gy g := by
  obtain ⟨g, h1, h2, h3⟩ := mulOp_same (x0 := gy) (x1 := m) (hg.trans hm.symm)
  refine ⟨g, h1, h2.trans hg, fun d hd => ?_⟩
  choose Y hY hs he using fun t => zip_same (f := (· * · : ℝ → ℝ → ℝ)) (a := m) (b := along x d t) hm
  refine ⟨Y, fun t => ⟨hY t, (hs t).trans hg.symm⟩, ?_⟩
  rw [hg]
  have e : (fun t => ∑ i ∈ idxs x.shape, gy.get i * (Y t).get i) = fun t => ∑ i ∈ idxs x.shape, gy.get i * (m.get i * (x.get i + t * d.get i)) := by
    funext t
    refine Finset.sum_congr rfl fun i hi => ?_
    rw [he t i (mem_idxs.1 hi)]
    rfl
  rw [e]
  refine HasDerivAt.congr_deriv (HasDerivAt.fun_sum (A' := fun i => gy.get i * (m.get i * d.get i)) fun i _ => ?_) ?_
  · refine HasDerivAt.const_mul _ (HasDerivAt.const_mul _ ?_)
    simpa using ((hasDerivAt_id (0 : ℝ)).mul_const (d.get i)).const_add (x.get i)
  · refine Finset.sum_congr rfl fun i hi => ?_
    rw [h3 i (by rw [hg]; exact mem_idxs.1 hi)]
    ring

example : (ofFn [2, 3] fun _ => (1 : ℝ)).shape = (ofFn [2, 3] fun _ => (5 : ℝ)).shape := rfl

variable {Op E W : Type}

/-- Ops of the graphs below. -/
inductive RdOp where
  | ones | drop (train : Bool) | nth | mul | other
deriving DecidableEq

/-- The ops of `RdOp`; samples come from a sequence that is a part of the world. -/
noncomputable def rdSem : Sem RdOp (Arr ℝ) Unit (Nat → ℝ) where
  compute
    | .ones, w, _ => .done w [] [ofFn [2] fun _ => 1] (.ok ())
    | .drop train, w, xs => dropoutCompute train (1 / 4) stream (fun w => w) (fun _ s => s) w xs
    | .nth, w, xs => identityCompute w xs
    | .mul, w, xs => mulCompute w xs
    | .other, _, _ => .panic
  shapeOf := fun a => a.shape
  debug := false

def rdOps : Ops RdOp := ⟨.other, .other, .other, fun _ => .other⟩

/-- An array, its dropout (1), a seed of the gradient, the second output of dropout (3) and the gradient (4). -/
def rdCmds (train : Bool) : List (Cmd RdOp) :=
  [.build {} .ones, .build { inNodes := [{ id := 0 }] } (.drop train), .build {} .ones, .build { inNodes := [{ id := 1, selector := 1 }] } .nth,
   .build { inNodes := [{ id := 2 }, { id := 3 }] } .mul]

def rdGraph (train : Bool) : Graph RdOp :=
  match (Graph.empty : Graph RdOp).execAll rdOps (rdCmds train) with
  | .ok (g, _) => g
  | _ => Graph.empty

/-- **C56** In every evaluation the gradient of a dropout tensor uses the mask that was used in the forward direction: let `y = dropout(x)` (while training), `m` be the tensor
of its second output and `gx = gy * m`, which is what `Dropout::grad` builds. If an evaluation returns an array `v` for `gx`, then there is one mask of zeros and ones
such that `y` is the input times this mask and `v` is the gradient of multiplying with this mask. The input of the op is the array returned for `x`, if it is requested
too, and likewise for `y` and `gy`. -/
theorem C56_mask_shared (O : Ops Op) (S : Sem Op (Arr ℝ) E W) (g : Graph Op) (fuel : Nat) (targets : List Nat) (feeds : List (Feed (Arr ℝ)))
    (env : List (Arr ℝ)) (w : W) (res : EvalResult (Arr ℝ) E W) (hg : Reachable O g) (ht : ∀ t ∈ targets, t < g.size)
    (h : eval S g fuel targets feeds env w = some (.ok res)) (ratio : ℝ) (uniform : σ → ℝ × σ) (cell : W → σ) (put : W → σ → W) (opD opI opM : Op)
    (hD : ∀ w xs, S.compute opD w xs = dropoutCompute true ratio uniform cell put w xs) (hI : ∀ w xs, S.compute opI w xs = identityCompute w xs)
    (hM : ∀ w xs, S.compute opM w xs = mulCompute w xs) (x y m gy gx : Nat) (hy : IsApp g y opD [x])
    (hm : ∃ n, g.nodes[m]? = some n ∧ n.op = opI ∧ n.incoming = [{ id := y, selector := 1 }] ∧ n.placeholderName = none ∧ n.variableId = none)
    (hgx : IsApp g gx opM [gy, m]) (k : Nat) (hk : targets[k]? = some gx) (v : Arr ℝ) (hv : res.results[k]? = some (.ok v)) :
    ∃ xv yv gv mask : Arr ℝ, mask.shape = xv.shape ∧ (∀ i, InB i xv.shape → mask.get i = 0 ∨ mask.get i = 1) ∧
      zipOp (· * ·) mask xv = .ok yv ∧ (gv.shape = xv.shape → IsGradient (fun x => zipOp (· * ·) mask x) xv gv v) ∧
      (∀ j : Nat, targets[j]? = some y → res.results[j]? = some (.ok yv)) ∧
      (∀ j : Nat, targets[j]? = some x → IsOp g x → res.results[j]? = some (.ok xv)) ∧
      (∀ j : Nat, targets[j]? = some gy → IsOp g gy → res.results[j]? = some (.ok gv)) := by
  obtain ⟨st, _, hs, hi, hlog, _, _, hx, hres, _⟩ := eval_ok hg.wf ht h
  have hnd : (res.log.map Prod.fst).Nodup := by rw [hlog, List.map_reverse, List.nodup_reverse]; exact hi.nodup
  have hret : ∀ (j t : Nat), targets[j]? = some t → ∃ r, res.results[j]? = some r ∧ TargetReturns S g feeds (toExec st) t r := fun j t hj => by
    obtain ⟨r, hr, h1⟩ := (forall₂_get hres).2 j t hj
    exact ⟨r, hr, h1⟩
  have hgot : ∀ (t : Nat) (ys : List (Arr ℝ)) (z : Arr ℝ), IsOp g t → (toExec st).results t = some (.ok ys) → ys[0]? = some z →
      ∀ j : Nat, targets[j]? = some t → res.results[j]? = some (.ok z) := by
    rintro t ys z ⟨n, hn, hp, hvid⟩ hr hz j hj
    obtain ⟨r, h1, h2⟩ := hret j t hj
    rw [h1]
    cases h2 with
    | variable_ a b _ => rw [hn] at a; cases a; rw [hvid] at b; cases b
    | placeholder a _ c => rw [hn] at a; cases a; obtain ⟨_, _, c, _⟩ := c; rw [hp] at c; cases c
    | result _ a b => rw [hr] at a; cases a; rw [hz] at b; cases b; rfl
    | failed _ a => rw [hr] at a; cases a
  have hin : ∀ (a : Nat) (cv : Nat → Except E (List (Arr ℝ))) (i : Incoming) (env1 : List (Arr ℝ)) (o : OpInput (Arr ℝ)),
      (∀ c, Uses g a c → (toExec st).results c = some (cv c)) → DependsDirectly g a i.id → InputIs S.shapeOf g feeds env1 cv i (.ok o) →
      IsOp g i.id → ∃ ys, (toExec st).results i.id = some (.ok ys) ∧ ys[i.selector]? = some o.val := by
    rintro a cv i env1 o hcv hdep hio ⟨n, hn, hp, hvid⟩
    cases hio with
    | placeholder a b => rw [hn] at a; cases a; obtain ⟨_, _, b, _⟩ := b; rw [hp] at b; cases b
    | variable_ a _ b _ => rw [hn] at a; cases a; rw [hvid] at b; cases b
    | @result ys y _ b c => exact ⟨ys, by rw [hcv _ ⟨hdep, n, hn, hp, hvid⟩, b], c⟩
  obtain ⟨ny, hny, rfl, hiny, hpy, hvy⟩ := hy
  obtain ⟨nm, hnm, rfl, hinm, hpm, hvm⟩ := hm
  obtain ⟨nx, hnx, rfl, hinx, hpx, hvx⟩ := hgx
  -- the call of the multiplication
  have hgx : ∃ ys, (toExec st).results gx = some (.ok ys) ∧ ys[0]? = some v := by
    obtain ⟨r, h1, h2⟩ := hret k gx hk
    rw [hv] at h1; cases h1
    cases h2 with
    | variable_ a b _ => rw [hnx] at a; cases a; rw [hvx] at b; cases b
    | placeholder a _ c => rw [hnx] at a; cases a; obtain ⟨_, _, c, _⟩ := c; rw [hpx] at c; cases c
    | result _ a b => exact ⟨_, a, b⟩
  obtain ⟨zs, hzs, hz0⟩ := hgx
  obtain ⟨n1, cv1, env1, w1, xs1, w1', ws1, ys1, st1, r1, a1, b1, c1, d1, e1, f1⟩ := execList_called hx hnd (called_of_ok hx hnd hzs)
  rw [hnx] at a1; cases a1
  rw [hzs] at f1; cases f1
  obtain ⟨rfl, rfl⟩ := outcome_ok e1
  rw [hinx] at c1
  rw [hM] at d1
  generalize hl1 : ([gy, m].map fun x => ({ id := x } : Incoming)) = l1 at c1
  cases c1 with
  | nil => cases hl1
  | @cons i0 is0 og os0 c2 c3 =>
    cases hl1
    generalize hl2 : ([m].map fun x => ({ id := x } : Incoming)) = l2 at c3
    cases c3 with
    | nil => cases hl2
    | @cons i1 is1 om os1 c4 c5 =>
      cases hl2
      cases c5
      have hmdep : DependsDirectly g gx m := ⟨nx, hnx, { id := m }, by rw [hinx]; simp, rfl⟩
      have hgdep : DependsDirectly g gx gy := ⟨nx, hnx, { id := gy }, by rw [hinx]; simp, rfl⟩
      obtain ⟨ms, hms, hm0⟩ := hin gx cv1 _ env1 om b1 hmdep c4 ⟨nm, hnm, hpm, hvm⟩
      -- the call of the identity
      obtain ⟨n2, cv2, env2, w2, xs2, w2', ws2, ys2, st2, r2, a2, b2, c6, d2, e2, f2⟩ := execList_called hx hnd (called_of_ok hx hnd hms)
      rw [hnm] at a2; cases a2
      rw [hms] at f2; cases f2
      obtain ⟨rfl, rfl⟩ := outcome_ok e2
      rw [hinm] at c6
      rw [hI] at d2
      cases c6 with
      | @cons _ _ o2 os2 c7 c8 =>
        cases c8
        cases d2
        have hydep : DependsDirectly g m y := ⟨nm, hnm, { id := y, selector := 1 }, by rw [hinm]; simp, rfl⟩
        obtain ⟨ys, hys, hy1⟩ := hin m cv2 _ env2 o2 b2 hydep c7 ⟨ny, hny, hpy, hvy⟩
        -- the call of dropout
        obtain ⟨n3, cv3, env3, w3, xs3, w3', ws3, ys3, st3, r3, a3, b3, c9, d3, e3, f3⟩ := execList_called hx hnd (called_of_ok hx hnd hys)
        rw [hny] at a3; cases a3
        rw [hys] at f3; cases f3
        obtain ⟨rfl, rfl⟩ := outcome_ok e3
        rw [hiny] at c9
        rw [hD] at d3
        generalize hl3 : ([x].map fun x => ({ id := x } : Incoming)) = l3 at c9
        cases c9 with
        | nil => cases hl3
        | @cons i3 is3 ox os3 c10 c11 =>
          cases hl3
          cases c11
          obtain ⟨yv, mask, h1, h2, h3, h4⟩ := C56_dropout_train ratio uniform ox.val (cell w3)
          have e4 : ys3 = [yv, mask] := by
            simp only [dropoutCompute, h1] at d3
            cases d3
            rfl
          subst e4
          have e5 : o2.val = mask := by simpa using hy1.symm
          have e6 : om.val = mask := by rw [← e5]; simpa using hm0.symm
          have e7 : mulOp og.val mask = .ok v := by
            simp only [mulCompute, e6] at d1
            split at d1
            · rename_i z hz
              cases d1
              simp at hz0
              rw [hz, hz0]
            · cases d1
          have hzip : zipOp (· * ·) mask ox.val = .ok yv := by
            obtain ⟨y', e, _⟩ := zip_same (f := (· * · : ℝ → ℝ → ℝ)) h3
            have := h1
            simp only [dropout, if_true] at this
            cases hb : zipOp (· * ·) (bernoulli uniform (1 - ratio) ox.val.shape (cell w3)).1 ox.val with
            | error => rw [hb] at this; cases this
            | ok z =>
              rw [hb] at this
              have h5 := (Prod.mk.inj this).1
              have h6 : [z, (bernoulli uniform (1 - ratio) ox.val.shape (cell w3)).1] = [yv, mask] := Except.ok.inj h5
              simp at h6
              rw [← h6.1, ← h6.2]
              exact hb
          refine ⟨ox.val, yv, og.val, mask, h3, fun i hi => ?_, hzip, fun hgs => ?_, ?_, ?_, ?_⟩
          · rw [(h4 i hi).1]
            split
            · exact .inr rfl
            · exact .inl rfl
          · obtain ⟨gv, e8, e9⟩ := C56_dropout_gradient ox.val mask og.val h3 hgs
            rw [dropoutGrad, e7] at e8
            cases e8
            exact e9
          · exact hgot y _ yv ⟨ny, hny, hpy, hvy⟩ hys rfl
          · intro j hj ho
            obtain ⟨xs, e8, e9⟩ := hin y cv3 _ env3 ox b3 ⟨ny, hny, { id := x }, by rw [hiny]; simp, rfl⟩ c10 ho
            exact hgot x xs _ ho e8 e9 j hj
          · intro j hj ho
            obtain ⟨xs, e8, e9⟩ := hin gx cv1 _ env1 og b1 hgdep c2 ho
            exact hgot gy xs _ ho e8 e9 j hj

/-- A graph as in `C56_mask_shared`, and an evaluation of it. -/
example (u : Nat → ℝ) : ∃ res v, Reachable rdOps (rdGraph true) ∧ IsApp (rdGraph true) 1 (.drop true) [0] ∧ IsApp (rdGraph true) 4 .mul [2, 3] ∧
    (∃ n, (rdGraph true).nodes[3]? = some n ∧ n.op = .nth ∧ n.incoming = [{ id := 1, selector := 1 }] ∧ n.placeholderName = none ∧ n.variableId = none) ∧
    eval rdSem (rdGraph true) 40 [0, 1, 4] [] [] u = some (.ok res) ∧ res.results[2]? = some (.ok v) := by
  have hex : ∃ ts, (Graph.empty : Graph RdOp).execAll rdOps (rdCmds true) = .ok (rdGraph true, ts) := ⟨_, rfl⟩
  refine ⟨_, _, Reachable.all .init hex.choose_spec, ⟨_, rfl, rfl, rfl, rfl, rfl⟩, ⟨_, rfl, rfl, rfl, rfl, rfl⟩, ⟨_, rfl, rfl, rfl, rfl, rfl⟩, rfl, rfl⟩

/-- **C56** An evaluation that computes a dropout tensor `y` advances the generator of its op by exactly one sample per element of its input, and these samples decide about the mask;
an evaluation that does not need `y` leaves the generator alone. `cell` is the place of the generator in the world, which the ops of the other tensors do not touch; so
the next evaluation continues with the following samples. -/
theorem C56_evaluation_draws (O : Ops Op) (S : Sem Op (Arr ℝ) E W) (g : Graph Op) (fuel : Nat) (targets : List Nat) (feeds : List (Feed (Arr ℝ)))
    (env : List (Arr ℝ)) (w : W) (res : EvalResult (Arr ℝ) E W) (hg : Reachable O g) (ht : ∀ t ∈ targets, t < g.size)
    (h : eval S g fuel targets feeds env w = some (.ok res)) (ratio : ℝ) (uniform : σ → ℝ × σ) (cell : W → σ) (put : W → σ → W) (opD : Op)
    (hD : ∀ w xs, S.compute opD w xs = dropoutCompute true ratio uniform cell put w xs) (hput : ∀ w s, cell (put w s) = s) (x y : Nat) (hy : IsApp g y opD [x])
    (hother : ∀ t n, g.nodes[t]? = some n → t ≠ y → ∀ w xs w' ws ys st, S.compute n.op w xs = .done w' ws ys st → cell w' = cell w) :
    (¬ Needed g targets y → cell res.world = cell w) ∧
      ∀ (k : Nat) (yv : Arr ℝ), targets[k]? = some y → res.results[k]? = some (.ok yv) → cell res.world = after uniform yv.shape.prod (cell w) ∧
        ∃ xv : Arr ℝ, xv.shape = yv.shape ∧
          ∀ i, InB i yv.shape → yv.get i = if nthSample uniform (cell w) (rowPos yv.shape i) < 1 - ratio then xv.get i else 0 := by
  obtain ⟨st, _, hs, hi, hlog, _, hwd, hx, hres, _⟩ := eval_ok hg.wf ht h
  have hnd : (res.log.map Prod.fst).Nodup := by rw [hlog, List.map_reverse, List.nodup_reverse]; exact hi.nodup
  have hcell := cell_after hother hx hnd
  have hw : cell res.world = cell (toExec st).world := by rw [hwd]; rfl
  obtain ⟨ny, hny, rfl, hiny, hpy, hvy⟩ := hy
  refine ⟨fun hn => ?_, fun k yv hk hv => ?_⟩
  · have hni : y ∉ res.log.map Prod.fst := fun hm => hn ((C04_needed_exactly_once O S g fuel targets feeds env w res hg ht h).2.1 y |>.1 hm)
    rcases hcell with h | h | ⟨_, _, _, _, _, _, _, _, _, _, _, _, _, _, h⟩
    · exact hw.trans h.2
    · exact absurd (List.mem_map_of_mem (f := Prod.fst) h.1) hni
    · exact absurd (List.mem_map_of_mem (f := Prod.fst) h) hni
  · obtain ⟨r, h1, h2⟩ := (forall₂_get hres).2 k y hk
    rw [hv] at h1; cases h1
    cases h2 with
    | variable_ a b _ => rw [hny] at a; cases a; rw [hvy] at b; cases b
    | placeholder a _ c => rw [hny] at a; cases a; obtain ⟨_, _, c, _⟩ := c; rw [hpy] at c; cases c
    | @result ys _ ho hr h0 =>
      have hcall := called_of_ok hx hnd hr
      have hone : ∀ {b b' : Bool}, (y, b) ∈ res.log → (y, b') ∈ res.log → b = b' := fun h1 h2 => by
        have := List.inj_on_of_nodup_map hnd h1 h2 rfl
        exact (Prod.mk.inj this).2
      rcases hcell with h | h | ⟨n, w1, xs, w', ws, ys', st', r, e1, e2, e3, e4, e5, e6, _⟩
      · exact absurd (List.mem_map_of_mem (f := Prod.fst) hcall) h.1
      · exact absurd (hone h.1 hcall) (by simp)
      · rw [hny] at e1; cases e1
        rw [hr] at e5; cases e5
        obtain ⟨rfl, rfl⟩ := outcome_ok e4
        rw [hD] at e3
        unfold dropoutCompute at e3
        split at e3
        · rename_i ox
          obtain ⟨yv', mask, h1, h2, h3, h4⟩ := C56_dropout_train ratio uniform ox.val (cell w1)
          rw [h1] at e3
          cases e3
          simp at h0
          subst h0
          have e2' : cell w1 = cell w := e2
          refine ⟨by rw [hw, e6, hput, h2, e2'], ox.val, h2.symm, fun i hi => ?_⟩
          rw [h2] at hi ⊢
          obtain ⟨m1, m2⟩ := h4 i hi
          rw [m2, m1, e2']
          split <;> simp
        · cases e3

/-- The graph above; the world is the sequence of samples still to come. -/
example (u : Nat → ℝ) : ∃ res v, Reachable rdOps (rdGraph true) ∧ IsApp (rdGraph true) 1 (.drop true) [0] ∧
    (∀ t n, (rdGraph true).nodes[t]? = some n → t ≠ 1 → ∀ w xs w' ws ys st, rdSem.compute n.op w xs = .done w' ws ys st → w' = w) ∧
    eval rdSem (rdGraph true) 40 [1] [] [] u = some (.ok res) ∧ res.results[0]? = some (.ok v) := by
  have hex : ∃ ts, (Graph.empty : Graph RdOp).execAll rdOps (rdCmds true) = .ok (rdGraph true, ts) := ⟨_, rfl⟩
  refine ⟨_, _, Reachable.all .init hex.choose_spec, ⟨_, rfl, rfl, rfl, rfl, rfl⟩, ?_, rfl, rfl⟩
  intro t n hn ht w xs w' ws ys st h
  have hop : n.op = .ones ∨ n.op = .nth ∨ n.op = .mul := by
    match t, hn, ht with
    | 0, hn, _ => rw [← Option.some.inj hn]; exact .inl rfl
    | 2, hn, _ => rw [← Option.some.inj hn]; exact .inl rfl
    | 3, hn, _ => rw [← Option.some.inj hn]; exact .inr (.inl rfl)
    | 4, hn, _ => rw [← Option.some.inj hn]; exact .inr (.inr rfl)
    | t + 5, hn, _ => cases hn
  rcases hop with e | e | e <;> rw [e] at h
  · cases h; rfl
  · change identityCompute w xs = _ at h
    unfold identityCompute at h
    split at h <;> cases h
    rfl
  · change mulCompute w xs = _ at h
    unfold mulCompute at h
    split at h
    · split at h <;> cases h
      rfl
    · cases h

/-- **C56** violated for the gradient of dropout outside of training: scaling has the obvious gradient, but no evaluation ever returns an array for the tensor
that `Dropout::grad` builds, in any graph: it reads the second output of an op that has only one (unless an error from below gets in the way, the evaluation panics). -/
theorem C56_test_gradient_violated (O : Ops Op) (S : Sem Op (Arr ℝ) E W) (g : Graph Op) (fuel : Nat) (targets : List Nat) (feeds : List (Feed (Arr ℝ)))
    (env : List (Arr ℝ)) (w : W) (hg : Reachable O g) (ht : ∀ t ∈ targets, t < g.size) (ratio : ℝ) (uniform : σ → ℝ × σ) (cell : W → σ) (put : W → σ → W)
    (opD opM : Op) (hD : ∀ w xs, S.compute opD w xs = dropoutCompute false ratio uniform cell put w xs) (x y m gy gx : Nat) (hy : IsApp g y opD [x])
    (hm : ∃ n, g.nodes[m]? = some n ∧ n.incoming = [{ id := y, selector := 1 }] ∧ n.placeholderName = none ∧ n.variableId = none)
    (hgx : IsApp g gx opM [gy, m]) :
    (∀ xv gv : Arr ℝ, gv.shape = xv.shape →
      IsGradient (fun x => .ok (Nd.map (fun a => a * (1 - ratio)) x)) xv gv (Nd.map (fun a => a * (1 - ratio)) gv)) ∧
    ∀ res, eval S g fuel targets feeds env w = some (.ok res) → ∀ (k : Nat) (v : Arr ℝ), targets[k]? = some gx → res.results[k]? ≠ some (.ok v) := by
  constructor
  · intro xv gv hs
    refine ⟨hs, fun d hd => ⟨fun t => Nd.map (fun a => a * (1 - ratio)) (along xv d t), fun t => ⟨rfl, hs.symm⟩, ?_⟩⟩
    rw [hs]
    refine HasDerivAt.congr_deriv (HasDerivAt.fun_sum (A' := fun i => gv.get i * (d.get i * (1 - ratio))) fun i _ => ?_) ?_
    · refine HasDerivAt.const_mul _ (HasDerivAt.mul_const ?_ _)
      simpa [along] using ((hasDerivAt_id (0 : ℝ)).mul_const (d.get i)).const_add (xv.get i)
    · refine Finset.sum_congr rfl fun i _ => ?_
      show _ = gv.get i * (1 - ratio) * d.get i
      ring
  · intro res h k v hk hv
    obtain ⟨st, _, hs, hi, hlog, _, _, hx, hres, _⟩ := eval_ok hg.wf ht h
    have hnd : (res.log.map Prod.fst).Nodup := by rw [hlog, List.map_reverse, List.nodup_reverse]; exact hi.nodup
    obtain ⟨ny, hny, rfl, hiny, hpy, hvy⟩ := hy
    obtain ⟨nm, hnm, hinm, hpm, hvm⟩ := hm
    obtain ⟨nx, hnx, rfl, hinx, hpx, hvx⟩ := hgx
    have key : ∀ (a : Nat) (n : Node Op) (i : Incoming), g.nodes[a]? = some n → i ∈ n.incoming → IsOp g i.id →
        (∃ ys, (toExec st).results a = some (.ok ys)) → ∃ ys y, (toExec st).results i.id = some (.ok ys) ∧ ys[i.selector]? = some y := by
      rintro a n i hn hmem ho ⟨ys, hr⟩
      obtain ⟨n', cv, env1, _, xs, _, _, _, _, _, a1, b1, c1, _⟩ := execList_called hx hnd (called_of_ok hx hnd hr)
      rw [hn] at a1; cases a1
      obtain ⟨j, hj⟩ := List.getElem?_of_mem hmem
      obtain ⟨o, _, ho'⟩ := Hint.inputsAre_get c1 j i hj
      obtain ⟨n2, hn2, hp2, hv2⟩ := ho
      cases ho' with
      | placeholder a b => rw [hn2] at a; cases a; obtain ⟨_, _, b, _⟩ := b; rw [hp2] at b; cases b
      | variable_ a _ b _ => rw [hn2] at a; cases a; rw [hv2] at b; cases b
      | @result zs z _ b c => exact ⟨zs, z, by rw [b1 _ ⟨⟨n, hn, i, hmem, rfl⟩, n2, hn2, hp2, hv2⟩, b], c⟩
    have h1 : ∃ ys, (toExec st).results gx = some (.ok ys) := by
      obtain ⟨r, h1, h2⟩ := (forall₂_get hres).2 k gx hk
      rw [hv] at h1; cases h1
      cases h2 with
      | variable_ a b _ => rw [hnx] at a; cases a; rw [hvx] at b; cases b
      | placeholder a _ c => rw [hnx] at a; cases a; obtain ⟨_, _, c, _⟩ := c; rw [hpx] at c; cases c
      | result _ a b => exact ⟨_, a⟩
    obtain ⟨ms, _, h2, _⟩ := key gx nx { id := m } hnx (by rw [hinx]; simp) ⟨nm, hnm, hpm, hvm⟩ h1
    obtain ⟨ys, z, h3, h4⟩ := key m nm { id := y, selector := 1 } hnm (by rw [hinm]; simp) ⟨ny, hny, hpy, hvy⟩ ⟨ms, h2⟩
    obtain ⟨n3, cv3, env3, w3, xs3, w3', ws3, ys3, st3, r3, a3, b3, c9, d3, e3, f3⟩ := execList_called hx hnd (called_of_ok hx hnd h3)
    rw [hny] at a3; cases a3
    rw [h3] at f3; cases f3
    obtain ⟨rfl, rfl⟩ := outcome_ok e3
    rw [hD] at d3
    unfold dropoutCompute at d3
    split at d3
    · rename_i o
      simp only [dropout, Bool.false_eq_true, if_false] at d3
      cases d3
      simp at h4
    · cases d3

/-- A graph as in `C56_test_gradient_violated`: dropout itself can be evaluated, its gradient panics. -/
example (u : Nat → ℝ) : Reachable rdOps (rdGraph false) ∧ IsApp (rdGraph false) 1 (.drop false) [0] ∧ IsApp (rdGraph false) 4 .mul [2, 3] ∧
    (∃ n, (rdGraph false).nodes[3]? = some n ∧ n.incoming = [{ id := 1, selector := 1 }] ∧ n.placeholderName = none ∧ n.variableId = none) ∧
    (∃ res v, eval rdSem (rdGraph false) 40 [1] [] [] u = some (.ok res) ∧ res.results[0]? = some (.ok v)) ∧
    ∃ p, eval rdSem (rdGraph false) 40 [1, 4] [] [] u = some (.error p) := by
  have hex : ∃ ts, (Graph.empty : Graph RdOp).execAll rdOps (rdCmds false) = .ok (rdGraph false, ts) := ⟨_, rfl⟩
  exact ⟨Reachable.all .init hex.choose_spec, ⟨_, rfl, rfl, rfl, rfl, rfl⟩, ⟨_, rfl, rfl, rfl, rfl, rfl⟩, ⟨_, rfl, rfl, rfl, rfl⟩, ⟨_, _, rfl, rfl⟩, _, rfl⟩

/-- **C56** violated for independence of layers: generators created by default start from the same seed, so two dropout layers drop the same elements when they are first
evaluated; the second of two layers with the same ratio drops nothing, whatever the generator, the ratio and the input. -/
theorem C56_default_seed_violated (ratio : ℝ) (uniform : σ → ℝ × σ) (seed : σ) (x : Arr ℝ) :
    ∃ y m z m', (dropout true ratio uniform x seed).1 = .ok [y, m] ∧ (dropout true ratio uniform y seed).1 = .ok [z, m'] ∧
      z.shape = y.shape ∧ ∀ i, InB i y.shape → m'.get i = m.get i ∧ z.get i = y.get i := by
  obtain ⟨y, m, h1, h2, h3, h4⟩ := C56_dropout_train ratio uniform x seed
  obtain ⟨z, m', h5, h6, h7, h8⟩ := C56_dropout_train ratio uniform y seed
  refine ⟨y, m, z, m', by rw [h1], by rw [h5], h6, fun i hi => ?_⟩
  obtain ⟨a, b⟩ := h8 i hi
  rw [h2] at a hi
  obtain ⟨c, e⟩ := h4 i hi
  have : m'.get i = m.get i := a.trans c.symm
  refine ⟨this, ?_⟩
  rw [b, e, this, c]
  split <;> ring

/-- **C56** partial (Glorot initialisation): `glorot_normal` has the variance `2 / (rows + columns)` of the Glorot scheme for square matrices. Missing: all other matrices,
and `glorot_uniform`, see `C56_glorot_violated`. -/
theorem C56_glorot_partial (n : Nat) (hn : 0 < n) : ∃ s, glorotNormalStd [n, n] = .ok s ∧ s ^ 2 = 2 / ((n : ℝ) + n) := by
  refine ⟨1 / Real.sqrt n, by simp [glorotNormalStd, hn.ne'], ?_⟩
  have : (0 : ℝ) < n := by exact_mod_cast hn
  rw [div_pow, Real.sq_sqrt this.le]
  field_simp
  norm_num

/-- **C56** violated by the Glorot initialisers: the variance of `glorot_normal` is that of the Glorot scheme, `2 / (rows + columns)`, only for square matrices, and the bound of
`glorot_uniform` is that of the scheme, `sqrt (6 / (rows + columns))`, for no matrix at all: the number of columns is ignored. -/
theorem C56_glorot_violated (r c : Nat) (hr : 0 < r) (hc : 0 < c) :
    (∃ s, glorotNormalStd [r, c] = .ok s ∧ (s ^ 2 = 2 / ((r : ℝ) + c) ↔ r = c)) ∧
    ∃ b, glorotUniformBound [r, c] = .ok b ∧ b ≠ Real.sqrt (6 / ((r : ℝ) + c)) := by
  have h1 : (0 : ℝ) < r := by exact_mod_cast hr
  have h2 : (0 : ℝ) < c := by exact_mod_cast hc
  refine ⟨⟨1 / Real.sqrt r, by simp [glorotNormalStd, hr.ne'], ?_⟩, Real.sqrt (6 / r), by simp [glorotUniformBound, hr.ne'], ?_⟩
  · rw [div_pow, Real.sq_sqrt h1.le, div_eq_div_iff h1.ne' (by positivity)]
    constructor
    · intro h
      have : (r : ℝ) = c := by linarith
      exact_mod_cast this
    · rintro rfl
      ring
  · intro h
    have := (Real.sqrt_inj (by positivity) (by positivity)).1 h
    rw [div_eq_div_iff h1.ne' (by positivity)] at this
    linarith

/-- A 2 x 8 matrix: variance 1/2 instead of 1/5. -/
example : ∃ s, glorotNormalStd [2, 8] = .ok s ∧ s ^ 2 = 1 / 2 := by
  refine ⟨1 / Real.sqrt 2, by simp [glorotNormalStd], ?_⟩
  rw [div_pow, Real.sq_sqrt (by norm_num)]
  norm_num

end Verif.Props
