import Mathlib.Analysis.Calculus.Deriv.Add
import Mathlib.Analysis.Calculus.Deriv.Mul
import Mathlib.Analysis.Calculus.Deriv.Inv
import Mathlib.Analysis.Calculus.Deriv.Comp
import Verif.Lemmas.CrossEntropy
import Verif.Lemmas.Elementwise
import Verif.Lemmas.ExpandSqueeze
import Verif.Lemmas.MatMul
import Verif.Lemmas.ProgramEval
import Verif.Lemmas.ReduceGrad
import Verif.Lemmas.ZipLayout
import Verif.Spec.Program

/-! Layouts of results, and how the results of ops vary with their inputs. -/

namespace Verif.Prog
open Verif Verif.Graph Verif.Nd Verif.Hint Verif.Gradient Verif.Spec Verif.Eval

/-! ## Layouts -/

/-- An array with a layout that `into_shape` accepts. -/
def Cont (a : Arr ℝ) : Prop := Contig a.shape a.strides ∧ a.strides.length = a.shape.length

theorem cStrides_length (s : List Nat) : (cStrides s).length = s.length := by
  induction s with
  | nil => rfl
  | cons n s ih => simpa [cStrides] using ih

theorem fStrides_length (s : List Nat) : (fStrides s).length = s.length := by simp [fStrides, cStrides_length]

theorem cont_ofFn (s : List Nat) (f : List Nat → ℝ) : Cont (ofFn s f) := ⟨.inl (isStandard_cStrides s), cStrides_length s⟩

theorem cont_map {a : Arr ℝ} (h : Cont a) (f : ℝ → ℝ) : Cont (Nd.map f a) := neat_map fun _ => h.1

theorem cont_map_nil {a : Arr ℝ} (h : a.shape = []) (f : ℝ → ℝ) : Cont (Nd.map f a) := neat_map_nil h

theorem contig_f (s : List Nat) : Contig s (fStrides s) := by
  match s with
  | [] => exact .inl rfl
  | [n] => exact .inl (isStandard_cStrides [n])
  | a :: b :: s =>
    refine .inr ⟨by simp, ?_⟩
    rw [fStrides, List.reverse_reverse]
    exact isStandard_cStrides _

theorem cont_intoShape {a r : Arr ℝ} {s : List Nat} (h : intoShape a s = some r) : Cont r := by
  unfold intoShape at h
  split at h
  · split at h
    · cases h; exact ⟨.inl (isStandard_cStrides s), cStrides_length s⟩
    · split at h
      · cases h; exact ⟨contig_f s, fStrides_length s⟩
      · cases h
  · cases h

theorem unwrap_ok {α : Type} {o : Option α} {a : α} : unwrap o = .ok a ↔ o = some a := by
  cases o <;> simp [unwrap]

theorem cont_maybeReduce {gy r : Arr ℝ} {t : List Nat} (hg : Cont gy) (h : Nd.maybeReduce gy t = .ok r) : Cont r := by
  unfold Nd.maybeReduce at h
  split at h
  · cases h; exact hg
  · dsimp only at h
    generalize (if isScalarShape t = true then List.replicate gy.shape.length 1 else t) = o at h
    split at h
    · exact cont_intoShape (unwrap_ok.1 h)
    · simp only [bind_ok] at h
      obtain ⟨_, _, _, _, h⟩ := h
      exact cont_intoShape (unwrap_ok.1 h)

theorem cont_zip {f : ℝ → ℝ → ℝ} {a b r : Arr ℝ} (h : zipOp f a b = .ok r) : Cont r := neat_zip h

theorem scalarElem_shape {a : Arr ℝ} {e : ℝ} (h : scalarElem a = .ok e) : a.shape = [] := by
  unfold scalarElem at h
  split at h
  · assumption
  · cases h

theorem broadcastsTo_nil_right {s : List Nat} (h : BroadcastsTo s []) : s = [] := by simpa using h.1

/-- The result of a binary op has the layout of an operand that is not broadcast, or a fresh one. -/
theorem cont_bin {f : ℝ → ℝ → ℝ} {a b r : Arr ℝ} (ha : Cont a) (hb : BroadcastsTo b.shape a.shape) (h : binForward f a b = .ok r) : Cont r := by
  unfold binForward at h
  dsimp only at h
  split at h
  · rename_i hc
    simp only [bind_ok] at h; obtain ⟨_, h1, h⟩ := h
    rw [scalarElem_shape h1] at hb
    cases h; exact cont_map_nil (broadcastsTo_nil_right hb) _
  · split at h
    · simp only [bind_ok] at h; obtain ⟨_, _, h⟩ := h; cases h; exact cont_map ha _
    · exact cont_zip h

theorem cont_bin_right {f : ℝ → ℝ → ℝ} {a b r : Arr ℝ} (hb : Cont b) (ha : BroadcastsTo a.shape b.shape) (h : binForward f a b = .ok r) : Cont r := by
  unfold binForward at h
  dsimp only at h
  split at h
  · simp only [bind_ok] at h; obtain ⟨_, _, h⟩ := h; cases h; exact cont_map hb _
  · split at h
    · simp only [bind_ok] at h; obtain ⟨_, h1, h⟩ := h
      rw [scalarElem_shape h1] at ha
      cases h; exact cont_map_nil (broadcastsTo_nil_right ha) _
    · exact cont_zip h

theorem cont_sub {a b r : Arr ℝ} (hb : BroadcastsTo b.shape a.shape) (h : subOp a b = .ok r) : Cont r := by
  unfold subOp at h
  split at h
  · simp only [bind_ok] at h; obtain ⟨_, h1, h⟩ := h
    rw [scalarElem_shape h1] at hb
    cases h; exact cont_map_nil (broadcastsTo_nil_right hb) _
  · exact cont_zip h

theorem cont_div {a b r : Arr ℝ} (ha : Cont a) (hb : BroadcastsTo b.shape a.shape) (h : divOp a b = .ok r) : Cont r := by
  unfold divOp at h
  split at h
  · simp only [bind_ok] at h; obtain ⟨_, h1, h⟩ := h
    rw [scalarElem_shape h1] at hb
    cases h; exact cont_map_nil (broadcastsTo_nil_right hb) _
  · split at h
    · simp only [bind_ok] at h; obtain ⟨_, _, h⟩ := h; cases h; exact cont_map ha _
    · exact cont_zip h

theorem cont_matMul {ta tb : Bool} {a b : View ℝ} {r : Arr ℝ} (h : Nd.matMul ta tb a b = .ok r) : Cont r := by
  unfold Nd.matMul at h
  dsimp only at h
  split at h
  · split at h
    · cases h
    · cases h
      unfold Cont
      dsimp only
      split
      · exact ⟨contig_f _, fStrides_length _⟩
      · exact ⟨.inl (isStandard_cStrides _), cStrides_length _⟩
  · cases h

theorem cont_reduceGrad {gy r : Arr ℝ} {t : List Nat} {axes : List Int} {m : Bool} (hg : Cont gy) (h : reduceGradCommon gy t axes m = .ok r) : Cont r := by
  unfold reduceGradCommon at h
  split at h
  · cases h; exact hg
  · split at h
    · simp only [bind_ok] at h
      obtain ⟨_, _, _, _, _, h1, _, h2, h⟩ := h
      cases h; exact neat_toOwned (cont_intoShape (unwrap_ok.1 h1)) (unwrap_ok.1 h2)
    · simp only [bind_ok] at h
      obtain ⟨_, h1, h⟩ := h
      cases h; exact neat_toOwned hg (unwrap_ok.1 h1)

theorem cont_addN {x y : Arr ℝ} {zs : List (Arr ℝ)} {r : Arr ℝ} (h : Nd.addN (x :: y :: zs) = .ok r) : Cont r := by
  simp only [Nd.addN, bind_ok] at h
  obtain ⟨b, h1, h2⟩ := h
  have hb := cont_zip h1
  clear h1
  induction zs generalizing b with
  | nil => cases h2; exact hb
  | cons z zs ih =>
    simp only [addNLoop, bind_ok] at h2
    obtain ⟨_, _, h2⟩ := h2
    exact ih _ h2 hb

/-- The gradient enters an expression as a factor or a dividend. -/
def linInGy : EExp → Prop
  | .gy => True
  | .app _ e => linInGy e
  | .mul u v => linInGy u ∨ linInGy v
  | .div u _ => linInGy u
  | _ => False

theorem linInGy_full {e : EExp} (h : linInGy e) : e.full = true := by
  induction e with
  | gy => rfl
  | app op e ih => exact ih h
  | mul u v ihu ihv =>
    rcases h with h | h
    · simp [EExp.full, ihu h]
    · simp [EExp.full, ihv h]
  | div u v ihu _ => simp [EExp.full, ihu h]
  | _ => exact h.elim

theorem eval_shape {s : List Nat} {x y g r : Arr ℝ} (hx : x.shape = s) (hy : y.shape = s) (hg : g.shape = s) {e : EExp} (ho : e.Ok s)
    (h : e.eval x y g = .ok r) : r.shape = shp s e.full := by
  obtain ⟨r', h', hr⟩ := eval_rep s hx hy hg e ho
  rw [h] at h'
  cases h'
  exact hr.1

theorem broadcastsTo_shp (s : List Nat) (b : Bool) : BroadcastsTo (shp s b) s := by
  cases b
  · exact broadcastsTo_nil s
  · exact broadcastsTo_self s

theorem cont_lin {s : List Nat} {x y g r : Arr ℝ} (hx : x.shape = s) (hy : y.shape = s) (hg : g.shape = s) (hc : Cont g) {e : EExp} (ho : e.Ok s)
    (hl : linInGy e) (h : e.eval x y g = .ok r) : Cont r := by
  induction e generalizing r with
  | gy => cases h; exact hc
  | app op e ih =>
    simp only [EExp.eval, bind_ok] at h
    obtain ⟨a, h1, h⟩ := h
    cases h
    exact cont_map (ih ho hl h1) _
  | mul u v ihu ihv =>
    simp only [EExp.eval, bind_ok] at h
    obtain ⟨a, h1, b, h2, h⟩ := h
    have ha := eval_shape hx hy hg ho.1 h1
    have hb := eval_shape hx hy hg ho.2 h2
    rcases hl with hl | hl
    · refine cont_bin (ihu ho.1 hl h1) ?_ h
      rw [hb, ha, linInGy_full hl]; exact broadcastsTo_shp s _
    · refine cont_bin_right (ihv ho.2 hl h2) ?_ h
      rw [hb, ha, linInGy_full hl]; exact broadcastsTo_shp s _
  | div u v ihu _ =>
    simp only [EExp.eval, bind_ok] at h
    obtain ⟨a, h1, b, h2, h⟩ := h
    have ha := eval_shape hx hy hg ho.1 h1
    have hb := eval_shape hx hy hg ho.2.1 h2
    refine cont_div (ihu ho.1 hl h1) ?_ h
    rw [hb, ha, linInGy_full (e := u) hl]; exact broadcastsTo_shp s _
  | _ => exact hl.elim

/-- The layout of the gradients of the elementwise ops. -/
theorem cont_eval {op : EOp} {e : EExp} (he : op.grad = some e) {s : List Nat} {x y g r : Arr ℝ} (ho : e.Ok s) (hx : x.shape = s) (hy : y.shape = s) (hg : g.shape = s)
    (hc : Cont g) (hk : op.KeepsLayout → isDense x.shape x.strides = true → Contig x.shape x.strides) (h : e.eval x y g = .ok r) : Cont r := by
  have elu : ∀ alpha, op = .elu alpha → Cont r := by
    rintro alpha rfl
    cases he
    simp only [EExp.eval, bind_ok, Except.ok.injEq] at h
    obtain ⟨a, rfl, b, rfl, h⟩ := h
    simp only [eluGradOp, ownedOp, bind_ok] at h
    obtain ⟨z, h1, h⟩ := h
    cases h
    split
    · rename_i hs
      have hm : Cont (Nd.map (eluFactor alpha) x) := neat_map (hk trivial)
      exact ⟨by rw [hs]; exact hm.1, by rw [hs]; exact hm.2⟩
    · exact cont_zip h1
  have clip : ∀ lo hi, op = .clip lo hi → Cont r := by
    rintro lo hi rfl
    cases he
    simp only [EExp.eval, bind_ok, Except.ok.injEq] at h
    obtain ⟨a, rfl, b, rfl, h⟩ := h
    simp only [clipGradOp, bind_ok] at h
    obtain ⟨z, h1, h⟩ := h
    cases h
    exact neat_map (f := clipFactor lo hi) (hk trivial)
  cases op <;> simp only [EOp.grad, Option.some.injEq, reduceCtorEq] at he <;> first
    | exact elu _ rfl
    | exact clip _ _ rfl
    | (subst he; exact cont_lin hx hy hg hc ho (by simp [linInGy]) h)

/-! ## Variation -/

/-- The axes of a reduction. -/
noncomputable def axesOf (x a : Arr ℝ) : List Nat :=
  match normAxes x.shape.length (readAxes a) with
  | .ok ks => ks
  | .error _ => []

theorem axesOf_eq {x a : Arr ℝ} {ks : List Nat} (h : List.Forall₂ (AxisIs x.shape.length) (readAxes a) ks) : axesOf x a = ks := by
  rw [axesOf, normAxes_spec h]

/-- The axis denoted by a number. -/
def axisNat (n : Nat) (a : Int) : Nat := (if a < 0 then n + a else a).toNat

theorem axisNat_eq {n k : Nat} {a : Int} (h : AxisIs n a k) : axisNat n a = k := by
  obtain ⟨h1, h2⟩ := h
  unfold axisNat
  split <;> omega

/-- The softmax along axis `k`. -/
noncomputable def smAt (x : Arr ℝ) (k : Nat) (o : List Nat) : ℝ := Real.exp (x.get o) / lineSum k x.shape (fun q => Real.exp (x.get q)) o

/-- The label of row `i`. -/
noncomputable def labelAt (t : Arr ℝ) (i : Nat) : Nat := ⌊t.get (if t.shape.length = 1 then [i] else [i, 0])⌋₊

/-- The elements of a computed array. -/
noncomputable def linAt : Res (Arr ℝ) → List Nat → ℝ
  | .ok y => y.get
  | .error _ => fun _ => 0

/-- The shape given as an array. -/
noncomputable def shapeIn (a : Arr ℝ) : List Nat :=
  match readShape a with
  | .ok t => t
  | .error _ => []

theorem shapeIn_enc (s : List Nat) : shapeIn (encShape s) = s := by rw [shapeIn, readShape_enc]

/-- Element `i` of the convolution of images of shape `xs` with filters of shape `ws`. -/
noncomputable def convAt (pad stride dil : Nat) (xs ws : List Nat) (x w : Arr ℝ) (i : List Nat) : ℝ :=
  ∑ c ∈ Finset.range (xs.getD 1 0), ∑ a ∈ Finset.range (ws.getD 2 0), ∑ e ∈ Finset.range (ws.getD 3 0), w.get [i.getD 1 0, c, a, e] *
    padGet x (xs.getD 2 0) (xs.getD 3 0) pad (i.getD 0 0) c (i.getD 2 0 * stride + a * dil) (i.getD 3 0 * stride + e * dil)

/-- The positions found by max pooling. -/
def posAt : Res (Arr ℝ × Arr Nat) → List Nat → Nat
  | .ok r => r.2.get
  | .error _ => fun _ => 0

/-- The derivative of an op in the direction `t`, at the values `p`. -/
noncomputable def jvp (p : Nat → Arr ℝ) (t : Nat → List Nat → ℝ) : POp → List Nat → List Nat → ℝ
  | .addN, xs => fun i => (xs.map (fun x => t x i)).sum
  | .add, [a, b] => fun i => t a (bIdx (p a).shape i) + t b (bIdx (p b).shape i)
  | .sub, [a, b] => fun i => t a (bIdx (p a).shape i) - t b (bIdx (p b).shape i)
  | .mul, [a, b] => fun i => t a (bIdx (p a).shape i) * (p b).get (bIdx (p b).shape i) + (p a).get (bIdx (p a).shape i) * t b (bIdx (p b).shape i)
  | .div, [a, b] => fun i => (t a (bIdx (p a).shape i) * (p b).get (bIdx (p b).shape i) - (p a).get (bIdx (p a).shape i) * t b (bIdx (p b).shape i)) /
      (p b).get (bIdx (p b).shape i) ^ 2
  | .un op, [x] => fun i => deriv op.f ((p x).get i) * t x i
  | .matMul _ _, [a, b] => fun i => ∑ k ∈ Finset.range ((p a).shape.getD 1 0),
      (t a [i.getD 0 0, k] * (p b).get [k, i.getD 1 0] + (p a).get [i.getD 0 0, k] * t b [k, i.getD 1 0])
  | .sumAll, [x] => fun _ => ∑ i ∈ idxs (p x).shape, t x i
  | .reduceSum keep, [x, a] => fun i => ∑ o ∈ fibre (axesOf (p x) (p a)) keep (p x).shape i, t x o
  | .reduceMean keep, [x, a] => fun i => ∑ o ∈ fibre (axesOf (p x) (p a)) keep (p x).shape i, t x o * (1 / (sizeAt (axesOf (p x) (p a)) 0 (p x).shape : ℝ))
  | .softmax _ _ axis, [x] => fun i => smAt (p x) (axisNat (p x).shape.length axis) i *
      (t x i - lineSum (axisNat (p x).shape.length axis) (p x).shape (fun q => smAt (p x) (axisNat (p x).shape.length axis) q * t x q) i)
  | .logSoftmax _ _ _, [x] => fun i => t x i - lineSum 1 (p x).shape (fun q => smAt (p x) 1 q * t x q) i
  | .sigmoidCE, [x, l] => fun i => (Real.exp ((p x).get i) / (1 + Real.exp ((p x).get i)) - (p l).get i) * t x i
  | .sparseCE _ _, [x, l] => fun i => ∑ j ∈ Finset.range ((p x).shape.getD 1 0), smAt (p x) 1 [i.getD 0 0, j] * t x [i.getD 0 0, j] -
      t x [i.getD 0 0, labelAt (p l) (i.getD 0 0)]
  | .ident, [x] => t x
  | .slice starts stops, [x] => linAt (POp.run (.slice starts stops) [ofFn (p x).shape (t x)])
  | .squeeze, [x, a] => linAt (POp.run .squeeze [ofFn (p x).shape (t x), p a])
  | .transpose inv, [x, a] => linAt (POp.run (.transpose inv) [ofFn (p x).shape (t x), p a])
  | .reshape, [x, s] => linAt (POp.run .reshape [ofFn (p x).shape (t x), p s])
  | .gather norm axis, [i, x] => linAt (POp.run (.gather norm axis) [p i, ofFn (p x).shape (t x)])
  | .conv2d pad stride dil, [x, w] => fun i => convAt pad stride dil (p x).shape (p w).shape (ofFn (p x).shape (t x)) (p w) i +
      convAt pad stride dil (p x).shape (p w).shape (p x) (ofFn (p w).shape (t w)) i
  | .maxPool bot k pad stride, [x] => fun i => t x (unflat (p x).shape (posAt (Nd.maxPool false bot (p x) k pad stride) i))
  | .dropout _ _ mask, [x] => fun i => mask (p x).shape i * t x i
  | .maybeReduce, [x, s] => fun i => ∑ o ∈ (idxs (p x).shape).filter (fun o => bIdx (shapeIn (p s)) o = i), t x o
  | .maybeBroadcast, [x, _] => fun i => t x (bIdx (p x).shape i)
  | .sumAllGrad, [x, _] => fun _ => t x []
  | .extremum mx, [a, b] => fun i => if extFn mx ((p a).get i) ((p b).get i) = (p a).get i then t a i else t b i
  | .reduceExt mx lim keep, [x, a] => fun i => ∑ o ∈ fibre (axesOf (p x) (p a)) keep (p x).shape i,
      if (p x).get o = linAt (POp.run (.reduceExt mx lim keep) [p x, p a]) i then t x o else 0
  | _, _ => fun _ => 0

/-- What is required of the inputs of an op; elements of `flat` have derivative zero. -/
def OpOk (flat : Nat → List Nat → Prop) (p : Nat → Arr ℝ) : POp → List Nat → Prop
  | .const _, [] => True
  | .scalar _, [] => True
  | .shape, [_] => True
  | .size, [_] => True
  | .infer, [_, _] => True
  | .addN, x :: y :: zs => ∀ z ∈ y :: zs, (p z).shape = (p x).shape
  | .add, [a, b] => Inferable (p a).shape (p b).shape
  | .sub, [a, b] => Inferable (p a).shape (p b).shape
  | .mul, [a, b] => Inferable (p a).shape (p b).shape
  | .div, [a, b] => Inferable (p a).shape (p b).shape ∧ (p b).shape ≠ [1] ∧ ∀ i, InB i (p b).shape → (p b).get i ≠ 0
  | .un op, [x] => ElemOk op (p x)
  | .matMul ta tb, [_, _] => ta = false ∧ tb = false
  | .sumAll, [_] => True
  | .reduceSum _, [x, a] => (p x).shape ≠ [0] ∧ ∃ ks : List Nat, List.Forall₂ (AxisIs (p x).shape.length) (readAxes (p a)) ks ∧ ks.Nodup
  | .reduceMean _, [x, a] => MeanOk (p x) (p a)
  | .softmax _ lay axis, [x] => ∃ k, SoftmaxOk lay axis k (p x)
  | .logSoftmax _ lay axis, [x] => SoftmaxOk lay axis 1 (p x)
  | .sigmoidCE, [x, _] => (p x).shape ≠ [0] ∧ (p x).shape ≠ [1]
  | .sparseCE _ lay, [x, l] => SparseOk lay (p x) (p l)
  | .zeros, [_] => True
  | .ones, [_] => True
  | .ident, [_] => True
  | .slice starts stops, [x] => ∃ los his, AllBounds (p x).shape starts stops los his
  | .squeeze, [x, a] => SqueezeOk (p x) (p a)
  | .transpose inv, [x, a] => inv = false ∧ TransposeOk (p x) (p a)
  | .reshape, [x, s] => ∃ t, ReshapesTo (p x).shape (readDims (p s)) t
  | .gather _ axis, [i, x] => GatherOk axis (p i) (p x)
  | .conv2d pad stride dil, [x, w] => ConvOk pad stride dil (p x) (p w)
  | .maxPool bot k pad stride, [x] => PoolOk (flat x) bot k pad stride (p x)
  | .dropout train _ _, [_] => train = true
  | .maybeReduce, [x, s] => ∃ t, p s = encShape t ∧ BroadcastsTo t (p x).shape ∧ ScalarOrRank t (p x).shape ∧ ∀ d ∈ (p x).shape, 0 < d
  | .maybeBroadcast, [x, s] => ∃ t, p s = encShape t ∧ BroadcastsTo (p x).shape t ∧ ScalarOrRank (p x).shape t ∧ ∀ d ∈ t, 0 < d
  | .sumAllGrad, [x, s] => (p x).shape = [] ∧ ∃ t, p s = encShape t
  | .extremum _, [a, b] => ExtremumOk (p a) (p b)
  | .reduceExt mx lim keep, [x, a] => ReduceExtOk mx lim keep (p x) (p a)
  | .stop, [_] => True
  | _, _ => False

/-- The inputs that must not move. -/
def fixedIn : POp → List Nat → List Nat
  | .infer, xs => xs
  | .reduceSum _, [_, a] => [a]
  | .reduceMean _, [_, a] => [a]
  | .sigmoidCE, [_, a] => [a]
  | .sparseCE _ _, [_, a] => [a]
  | .zeros, xs => xs
  | .ones, xs => xs
  | .squeeze, [_, a] => [a]
  | .transpose _, [_, a] => [a]
  | .reshape, [_, a] => [a]
  | .gather _ _, [a, _] => [a]
  | .maybeReduce, [_, a] => [a]
  | .maybeBroadcast, [_, a] => [a]
  | .sumAllGrad, [_, a] => [a]
  | .reduceExt _ _ _, [_, a] => [a]
  | _, _ => []

theorem moves_of {op : POp} {W : ℝ → List (Arr ℝ)} {v : Arr ℝ} {τ : List Nat → ℝ} (φ : ℝ → List Nat → ℝ) (h0 : op.run (W 0) = .ok v)
    (hu : ∀ u, ∃ y, op.run (W u) = .ok y ∧ y.shape = v.shape ∧ ∀ i, InB i v.shape → y.get i = φ u i)
    (hd : ∀ i, InB i v.shape → HasDerivAt (fun u => φ u i) (τ i) 0) : ∃ Z, (∀ u, op.run (W u) = .ok (Z u)) ∧ Moves Z v τ := by
  choose Z h1 h2 h3 using hu
  refine ⟨Z, h1, ?_, h2, fun i hi => ?_⟩
  · have := h1 0; rw [h0] at this; exact (Except.ok.inj this).symm
  · rw [show (fun u => (Z u).get i) = fun u => φ u i from funext fun u => h3 u i hi]
    exact hd i hi

theorem moves_const (v : Arr ℝ) : Moves (fun _ => v) v (fun _ => 0) := ⟨rfl, fun _ => rfl, fun _ _ => hasDerivAt_const _ _⟩

theorem binary_moves {op : POp} {f : ℝ → ℝ → ℝ} {a b : Nat} {p : Nat → Arr ℝ} {v : Arr ℝ} {Y : Nat → ℝ → Arr ℝ} {t : Nat → List Nat → ℝ}
    (hr : op.run [p a, p b] = .ok v)
    (hs : ∀ x0 x1 : Arr ℝ, x0.shape = (p a).shape → x1.shape = (p b).shape → ∃ y, op.run [x0, x1] = .ok y ∧ IsBinary f x0 x1 v.shape y)
    (ha : Moves (Y a) (p a) (t a)) (hb : Moves (Y b) (p b) (t b)) (τ : List Nat → ℝ)
    (hd : ∀ i, InB i v.shape → HasDerivAt (fun u => f ((Y a u).get (bIdx (p a).shape i)) ((Y b u).get (bIdx (p b).shape i))) (τ i) 0) :
    ∃ Z, (∀ u, op.run [Y a u, Y b u] = .ok (Z u)) ∧ Moves Z v τ := by
  refine moves_of (W := fun u => [Y a u, Y b u]) (fun u i => f ((Y a u).get (bIdx (p a).shape i)) ((Y b u).get (bIdx (p b).shape i)))
    (by rw [ha.start, hb.start]; exact hr) (fun u => ?_) hd
  obtain ⟨y, h1, h2, h3⟩ := hs (Y a u) (Y b u) (ha.shape u) (hb.shape u)
  exact ⟨y, h1, h2, fun i hi => by rw [h3 i hi, ha.shape u, hb.shape u]⟩

theorem inB_bIdx {s t i : List Nat} (h : BroadcastsTo s t) (hi : InB i t) : InB (bIdx s i) s := (readsAt_bIdx h hi).1

theorem toView_get {a : Arr ℝ} {i : List Nat} (hi : InB i a.shape) : (toView a).arr.get i = a.get i := by
  show a.get (unflat a.shape (viewOffset i (cStrides a.shape)).toNat) = _
  have h := viewOffset_cStrides a.shape i (inB_length hi) 1
  simp only [mul_one, List.map_id'] at h
  rw [h, Int.toNat_natCast, unflat_flat hi]

theorem matMul_run {ta tb : Bool} {a b v : Arr ℝ} (h : POp.run (.matMul ta tb) [a, b] = .ok v) :
    ∃ m k n, a.shape = matShape [] ta m k ∧ b.shape = matShape [] tb k n := by
  have h : Nd.matMul ta tb (toView a) (toView b) = .ok v := h
  unfold Nd.matMul at h
  dsimp only at h
  split at h
  · rename_i m k _ _ k2 n _ _ e1 _ e2 _
    split at h
    · cases h
    · rename_i hk
      push Not at hk
      subst hk
      refine ⟨m, k, n, ?_, ?_⟩
      · cases ta
        · exact e1
        · have e1 : swapLast a.shape = [m, k] := e1
          match ha : a.shape with
          | [] => simp [ha, swapLast] at e1
          | [_] => simp [ha, swapLast] at e1
          | [x, y] => simp [ha, swapLast] at e1; simp [matShape, e1]
          | x :: y :: z :: l =>
            have := congrArg List.length e1
            simp [ha, swapLast] at this
            omega
      · cases tb
        · exact e2
        · have e2 : swapLast b.shape = [k, n] := e2
          match hb : b.shape with
          | [] => simp [hb, swapLast] at e2
          | [_] => simp [hb, swapLast] at e2
          | [x, y] => simp [hb, swapLast] at e2; simp [matShape, e2]
          | x :: y :: z :: l =>
            have := congrArg List.length e2
            simp [hb, swapLast] at this
            omega
  · cases h

theorem matMul_value (ta tb : Bool) (a b : Arr ℝ) (m k n : Nat) (ha : a.shape = matShape [] ta m k) (hb : b.shape = matShape [] tb k n) :
    ∃ y, POp.run (.matMul ta tb) [a, b] = .ok y ∧ IsProduct [] m k n ta tb a b y := by
  obtain ⟨y, h1, h2, h3⟩ := matMul_spec ta tb (toView a) (toView b) m k n
    (by show (cStrides a.shape).length = 2; rw [ha]; cases ta <;> rfl) (by show (cStrides b.shape).length = 2; rw [hb]; cases tb <;> rfl) ha hb
  refine ⟨y, h1, h2, fun bi hbi i hi j hj => ?_⟩
  rw [h3 bi hbi i hi j hj]
  refine Finset.sum_congr rfl fun q hq => ?_
  have hq := Finset.mem_range.1 hq
  have hbi' : bi = [] := by simpa using hbi
  subst hbi'
  unfold entry
  rw [toView_get, toView_get]
  · rw [hb]; cases tb <;> simp [matShape, InB, hq, hj]
  · rw [ha]; cases ta <;> simp [matShape, InB, hq, hi]

theorem hasDerivAt_sum_idxs {F : Finset (List Nat)} {f : ℝ → List Nat → ℝ} {τ : List Nat → ℝ} (h : ∀ i ∈ F, HasDerivAt (fun u => f u i) (τ i) 0) :
    HasDerivAt (fun u => ∑ i ∈ F, f u i) (∑ i ∈ F, τ i) 0 := HasDerivAt.fun_sum h

theorem hasDerivAt_list_sum {xs : List Nat} {f : ℝ → Nat → ℝ} {τ : Nat → ℝ} (h : ∀ x ∈ xs, HasDerivAt (fun u => f u x) (τ x) 0) :
    HasDerivAt (fun u => (xs.map (fun x => f u x)).sum) ((xs.map τ).sum) 0 := by
  induction xs with
  | nil => simpa using hasDerivAt_const (0 : ℝ) (0 : ℝ)
  | cons y ys ih =>
    simp only [List.map_cons, List.sum_cons]
    exact (h y (by simp)).add (ih fun z hz => h z (by simp [hz]))

theorem scalarOrRank_of {a b t : List Nat} (hc : CommonShape a b t) (hi : Inferable a b) : ScalarOrRank a t ∧ ScalarOrRank b t := by
  have hl := hc.2.2.1
  rcases hi.1 with h | h | h
  · subst h; exact ⟨.inl rfl, .inr (by simp at hl; omega)⟩
  · subst h; exact ⟨.inr (by simp at hl; omega), .inl rfl⟩
  · exact ⟨.inr (by omega), .inr (by omega)⟩

theorem inferable_common {p : Nat → Arr ℝ} {a b : Nat} {v : Arr ℝ}
    (hr : addOp (p a) (p b) = .ok v ∨ subOp (p a) (p b) = .ok v ∨ mulOp (p a) (p b) = .ok v ∨ divOp (p a) (p b) = .ok v)
    (hi : Inferable (p a).shape (p b).shape) :
    CommonShape (p a).shape (p b).shape v.shape ∧ (∀ n ∈ v.shape, 0 < n) ∧ ScalarOrRank (p a).shape v.shape ∧ ScalarOrRank (p b).shape v.shape := by
  have hc := arithmetic_common hr
  exact ⟨hc, commonShape_pos hc hi.2.1 hi.2.2, scalarOrRank_of hc hi⟩

theorem addN_value (xs : List (Arr ℝ)) (s : List Nat) (hne : xs ≠ []) (h : ∀ x ∈ xs, x.shape = s) :
    ∃ y, Nd.addN xs = .ok y ∧ y.shape = s ∧ ∀ i, InB i s → y.get i = (xs.map (fun x => x.get i)).sum := by
  match xs, hne, h with
  | [x], _, h => exact ⟨x, rfl, h x (by simp), fun i _ => by simp⟩
  | x :: y :: xs, _, h =>
    have hx := h x (by simp)
    have hy := h y (by simp)
    have hcs : CommonShape x.shape y.shape s := by
      rw [hx, hy]; exact commonShape_left (broadcastsTo_self s)
    obtain ⟨b, hb, hbs, hbg⟩ := zipOp_spec (f := (· + ·)) hcs
    obtain ⟨r, hr, hrs, hrg⟩ := addNLoop_same b xs (fun z hz => by rw [hbs]; exact h z (by simp [hz]))
    refine ⟨r, by simp only [Nd.addN, hb, bind, Except.bind]; exact hr, hrs.trans hbs, fun i hi => ?_⟩
    rw [hrg i (by rw [hbs]; exact hi), hbg i hi, hx, hy, bIdx_self hi]
    simp [add_assoc]

end Verif.Prog
