import Verif.Lemmas.Calls
import Verif.Lemmas.Smooth

/-! Graphs all of whose gradients can be differentiated again. -/

namespace Verif.Prog
open Verif Verif.Graph Verif.Nd Verif.Hint Verif.Gradient Verif.Spec Verif.Eval

/-- The tensor does not depend on the values of variables and placeholders, only on their shapes. -/
inductive Static (g : Graph POp) : Nat → Prop where
  | shape {t x} : IsApp g t .shape [x] → Static g t
  | size {t x} : IsApp g t .size [x] → Static g t
  | app {t op zs} : IsApp g t op zs → (∀ z ∈ zs, Static g z) → Static g t

theorem Static.mono {g g' : Graph POp} (hg : Grows g g') {t : Nat} (h : Static g t) : Static g' t := by
  induction h with
  | shape h => exact .shape (isApp_mono hg h)
  | size h => exact .size (isApp_mono hg h)
  | app h _ ih => exact .app (isApp_mono hg h) ih

theorem Static.still {g : Graph POp} {t : Nat} (h : Static g t) (X : List Nat) : Still g X t := by
  induction h with
  | shape h => exact .shape h
  | size h => exact .size h
  | app h _ ih => exact .app h ih

/-- What is required of the values of the inputs of an op. -/
def SOk (B : Bool) : POp → List (Arr ℝ) → Prop
  | .const _, [] => True
  | .scalar _, [] => True
  | .shape, [_] => True
  | .size, [_] => True
  | .infer, [_, _] => True
  | .addN, x :: y :: zs => ∀ z ∈ y :: zs, z.shape = x.shape
  | .add, [a, b] => Inferable a.shape b.shape
  | .sub, [a, b] => Inferable a.shape b.shape
  | .mul, [a, b] => Inferable a.shape b.shape
  | .div, [a, b] => Inferable a.shape b.shape ∧ b.shape ≠ [1] ∧ ∀ i, InB i b.shape → b.get i ≠ 0
  | .un op, [x] => (∀ d ∈ x.shape, 0 < d) ∧ (op.DividesArrays → x.shape ≠ [1]) ∧ (∀ i, InB i x.shape → op.SmoothAt (x.get i)) ∧ OpIn B op
  | .sumAll, [_] => True
  | .zeros, [_] => True
  | .ones, [_] => True
  | .ident, [_] => True
  | .maybeReduce, [x, s] => ∃ t, s = encShape t ∧ BroadcastsTo t x.shape ∧ ScalarOrRank t x.shape ∧ ∀ d ∈ x.shape, 0 < d
  | .maybeBroadcast, [x, s] => ∃ t, s = encShape t ∧ BroadcastsTo x.shape t ∧ ScalarOrRank x.shape t ∧ ∀ d ∈ t, 0 < d
  | .sumAllGrad, [x, s] => x.shape = [] ∧ ∃ t, s = encShape t
  | _, _ => False

theorem inB_zeros : ∀ {s : List Nat}, (∀ d ∈ s, 0 < d) → InB (s.map fun _ => 0) s
  | [], _ => .nil
  | _ :: _, h => .cons (h _ (by simp)) (inB_zeros fun _ hd => h _ (List.mem_cons_of_mem _ hd))

theorem sOk_opOk {B : Bool} {flat : Nat → List Nat → Prop} {p : Nat → Arr ℝ} {op : POp} {xs : List Nat} (h : SOk B op (xs.map p)) : OpOk flat p op xs := by
  unfold SOk at h
  split at h
  all_goals first
    | exact h.elim
    | skip
  case h_6 x y zs hxs =>
    match xs, hxs with
    | a :: b :: l, hxs =>
      simp only [List.map_cons, List.cons.injEq] at hxs
      obtain ⟨rfl, rfl, rfl⟩ := hxs
      intro z hz
      exact h (p z) (by simpa using (List.mem_cons.1 hz).imp (congrArg p) (fun hz => ⟨z, hz, rfl⟩))
  case h_11 op x hxs =>
    match xs, hxs with
    | [a], hxs =>
      cases hxs
      refine ⟨fun i hi => smooth_ok (h.2.2.1 i hi), fun hd => ⟨fun h0 => ?_, h.2.1 hd⟩, fun hk => ?_⟩
      · exact absurd (h.1 0 (by rw [h0]; simp)) (by simp)
      · have hs := h.2.2.1 _ (inB_zeros h.1)
        cases op <;> first | exact hk.elim | exact hs.elim
  all_goals
    rename_i hxs
    match xs, hxs with
    | [], hxs => first | exact trivial | cases hxs
    | [a], hxs => first | exact trivial | cases hxs
    | [a, b], hxs => first | exact trivial | (cases hxs; exact h) | cases hxs

section
variable {B : Bool} {F : List (Feed (Arr ℝ))} {N : List (Arr ℝ)}

/-- What is known of a node. -/
inductive SNode (B : Bool) (F : List (Feed (Arr ℝ))) (N : List (Arr ℝ)) (g : Graph POp) (k : Nat) (n : Node POp) : Prop where
  | leaf : n.op = .var ∨ n.op = .placeholder → n.incoming = [] → n.backpropInputs = none → n.differentiable = true →
      n.placeholderName ≠ none ∨ n.variableId ≠ none → SNode B F N g k n
  | app {xs vs} : IsApp g k n.op xs → n.backpropInputs = none → List.Forall₂ (Evals (setting F N) g) xs vs → SOk B n.op vs →
      (∀ a ∈ fixedIn n.op xs, Static g a) → (n.differentiable = false ↔ n.op = .shape ∨ n.op = .size) → SNode B F N g k n

theorem SNode.mono {g g' : Graph POp} (hg : Grows g g') (hc : InputsExist g) {k : Nat} {n : Node POp} (h : SNode B F N g k n) : SNode B F N g' k n := by
  cases h with
  | leaf a b c d e => exact .leaf a b c d e
  | app a b c d e f => exact .app (isApp_mono hg a) b (c.imp fun _ _ h => Evals.mono hg hc h) d (fun x hx => (e x hx).mono hg) f

/-- All tensors have values, at which all ops are smooth, and shapes are static. -/
structure SInv (B : Bool) (F : List (Feed (Arr ℝ))) (N : List (Arr ℝ)) (g : Graph POp) : Prop extends CInv (setting F N) g where
  reach : Props.Reachable hintOps.toOps g
  old : OldRead g
  ranked : ∀ (k : Nat) (n : Node POp), g.nodes[k]? = some n → ∀ i ∈ n.incoming, ∃ m, g.nodes[i.id]? = some m ∧ m.topoRank < n.topoRank
  node : ∀ (k : Nat) (n : Node POp), g.nodes[k]? = some n → SNode B F N g k n
  hints : ∀ (k : Nat) (n : Node POp) (t : Nat), g.nodes[k]? = some n → n.shape = some t → Static g t

theorem sinv_empty : SInv B F N (Graph.empty : Graph POp) :=
  { cinv_empty with
    reach := .init
    old := by intro k n h; simp [Graph.empty] at h
    ranked := by intro k n h; simp [Graph.empty] at h
    node := by intro k n h; simp [Graph.empty] at h
    hints := by intro k n t h; simp [Graph.empty] at h }

theorem SInv.add {g g' g'' : Graph POp} (hi : SInv B F N g) {b : Builder} {op : POp} {t : Nat} (hb : g.build b op = .ok (g', t))
    (hn : g''.nodes = g'.nodes) (hc : CInv (setting F N) g'') (hr : Props.Reachable hintOps.toOps g'') (hm : ∀ i ∈ b.inNodes, i.allowMut = false)
    (hnode : ∀ r, SNode B F N g'' t (b.toNode op r)) (hh : ∀ s, b.shape = some s → Static g s) : SInv B F N g'' := by
  have hg1 := build_grows hb
  have hg : Grows g g'' := ⟨fun i n hin => by rw [hn]; exact hg1.1 i n hin, fun hc id n hin i hii => by rw [hn] at hin ⊢; exact hg1.2 hc id n hin i hii⟩
  have ho := oldRead_build hi.old hb hm
  obtain ⟨r, hrk, _, rfl, _, e⟩ := build_ok hb
  rw [← hn] at e
  have hcase : ∀ k n, g''.nodes[k]? = some n → g.nodes[k]? = some n ∨ k = g.nodes.length ∧ n = b.toNode op r := by
    intro k n hk
    rw [e] at hk
    rcases Nat.lt_trichotomy k g.nodes.length with h1 | h1 | h1
    · rw [List.getElem?_append_left h1] at hk
      exact .inl hk
    · rw [h1, List.getElem?_append_right (Nat.le_refl _)] at hk
      simp at hk
      exact .inr ⟨h1, hk.symm⟩
    · rw [List.getElem?_eq_none (by simp; omega)] at hk; cases hk
  refine { hc with reach := hr, old := ?_, ranked := ?_, node := ?_, hints := ?_ }
  · intro k n hk i hi
    rw [hn] at hk
    exact ho k n hk i hi
  · intro k n hk i hii
    rcases hcase k n hk with h | ⟨rfl, rfl⟩
    · obtain ⟨m, a, b⟩ := hi.ranked k n h i hii
      exact ⟨m, hg.1 _ _ a, b⟩
    · obtain ⟨m, a, b⟩ := buildRank_ok hrk i hii
      exact ⟨m, hg.1 _ _ a, b⟩
  · intro k n hk
    rcases hcase k n hk with h | ⟨rfl, rfl⟩
    · exact (hi.node k n h).mono hg hi.closed
    · exact hnode r
  · intro k n s hk hs
    rcases hcase k n hk with h | ⟨rfl, rfl⟩
    · exact (hi.hints k n s h hs).mono hg
    · exact (hh s hs).mono hg

theorem SInv.op {g g' : Graph POp} (hi : SInv B F N g) {b : Builder} {op : POp} {t : Nat} (hb : g.build b op = .ok (g', t)) {as : List Nat}
    {vs : List (Arr ℝ)} {v : Arr ℝ} (h1 : b.inNodes = as.map inp) (h2 : b.placeholderName = none) (h3 : b.variableId = none) (h4 : b.backpropInputs = none)
    (ha : List.Forall₂ (Evals (setting F N) g) as vs) (hr : op.run vs = .ok v)
    (hh : ∀ s, b.shape = some s → Evals (setting F N) g s (encShape v.shape) ∧ Static g s) (hok : SOk B op vs) (hfix : ∀ a ∈ fixedIn op as, Static g a)
    (hd : b.differentiable = false ↔ op = .shape ∨ op = .size) : Grows g g' ∧ SInv B F N g' ∧ Evals (setting F N) g' t v ∧ IsApp g' t op as := by
  obtain ⟨hg, hc, he⟩ := hi.toCInv.op hb h1 h2 h3 ha hr (fun s hs => (hh s hs).1)
  have happ := build_isApp hb h1 h2 h3
  refine ⟨hg, hi.add hb rfl hc (reach_build hi.reach hb h3 h2) ?_ ?_ (fun s hs => (hh s hs).2), he, happ⟩
  · intro i hii
    rw [h1] at hii
    obtain ⟨x, _, rfl⟩ := List.mem_map.1 hii
    rfl
  · intro r
    exact .app happ h4 (ha.imp fun _ _ h => Evals.mono hg hi.closed h) hok (fun x hx => (hfix x hx).mono hg) hd

theorem SInv.shape {g g' : Graph POp} (hi : SInv B F N g) {x s : Nat} (h : Hint.shape hintOps g x = .ok (g', s)) {v : Arr ℝ}
    (hx : Evals (setting F N) g x v) : Grows g g' ∧ SInv B F N g' ∧ Evals (setting F N) g' s (encShape v.shape) ∧ Static g' s := by
  simp only [Hint.shape, bind_ok] at h
  obtain ⟨n, hn, h⟩ := h
  have hn' := access_some.1 hn
  cases hs : n.shape with
  | some s' =>
    simp only [hs, Except.ok.injEq, Prod.mk.injEq] at h
    obtain ⟨rfl, rfl⟩ := h
    exact ⟨grows_refl _, hi, hi.hinted hx n _ hn' hs, hi.hints _ _ _ hn' hs⟩
  | none =>
    simp only [hs] at h
    obtain ⟨a, b, c, d⟩ := hi.op h (as := [x]) (op := .shape) rfl rfl rfl rfl (.cons hx .nil) rfl (by simp) trivial (by simp [fixedIn]) (by simp)
    exact ⟨a, b, c, .shape d⟩

theorem SInv.like {g g' : Graph POp} (hi : SInv B F N g) {op : POp} {as : List Nat} {x t : Nat} (h : construct hintOps g (.like op (as.map inp) x) = .ok (g', t))
    {vs : List (Arr ℝ)} {v w : Arr ℝ} (ha : List.Forall₂ (Evals (setting F N) g) as vs) (hr : op.run vs = .ok v) (hx : Evals (setting F N) g x w)
    (hw : v.shape = w.shape) (hok : SOk B op vs) (hfix : fixedIn op as = []) (hns : op ≠ .shape ∧ op ≠ .size := by simp) : Grows g g' ∧ SInv B F N g' ∧ Evals (setting F N) g' t v := by
  simp only [construct, bind_ok] at h
  obtain ⟨⟨g1, s⟩, h1, h2⟩ := h
  obtain ⟨a, b, c, d⟩ := hi.shape h1 hx
  obtain ⟨a', b', c', _⟩ := b.op h2 rfl rfl rfl rfl (ha.imp fun _ _ h => Evals.mono a hi.closed h) hr (by
    intro s' hs'
    simp only [Option.some.injEq] at hs'
    subst hs'
    rw [hw]; exact ⟨c, d⟩) hok (by simp [hfix]) (by simp [hns])
  exact ⟨a.trans a', b', c'⟩

theorem SInv.plain {g g' : Graph POp} (hi : SInv B F N g) {op : POp} {as : List Nat} {t : Nat} (h : construct hintOps g (.plain op (as.map inp)) = .ok (g', t))
    {vs : List (Arr ℝ)} {v : Arr ℝ} (ha : List.Forall₂ (Evals (setting F N) g) as vs) (hr : op.run vs = .ok v)
    (hok : SOk B op vs) (hfix : ∀ a ∈ fixedIn op as, Static g a) (hns : op ≠ .shape ∧ op ≠ .size := by simp) : Grows g g' ∧ SInv B F N g' ∧ Evals (setting F N) g' t v := by
  obtain ⟨a', b', c', _⟩ := hi.op h rfl rfl rfl rfl ha hr (by simp) hok hfix (by simp [hns])
  exact ⟨a', b', c'⟩

theorem SInv.binary {g g' : Graph POp} (hi : SInv B F N g) {op : POp} {a b t : Nat} (h : construct hintOps g (.binary op a b) = .ok (g', t))
    {va vb v : Arr ℝ} (ha : Evals (setting F N) g a va) (hb : Evals (setting F N) g b vb) (hr : op.run [va, vb] = .ok v) (hc : CommonShape va.shape vb.shape v.shape)
    (hf : Inferable va.shape vb.shape) (hok : SOk B op [va, vb]) (hfix : fixedIn op [a, b] = []) : Grows g g' ∧ SInv B F N g' ∧ Evals (setting F N) g' t v := by
  have hns : op ≠ .shape ∧ op ≠ .size := ⟨by rintro rfl; exact hok, by rintro rfl; exact hok⟩
  simp only [construct, bind_ok] at h
  obtain ⟨⟨g1, sa⟩, h1, ⟨g2, sb⟩, h2, ⟨g3, s⟩, h3, h4⟩ := h
  obtain ⟨a1, b1, c1, d1⟩ := hi.shape h1 ha
  obtain ⟨a2, b2, c2, d2⟩ := b1.shape h2 (Evals.mono a1 hi.closed hb)
  have hst : ∀ z ∈ [sa, sb], Static g2 z := by
    intro z hz
    simp only [List.mem_cons, List.not_mem_nil, or_false] at hz
    rcases hz with rfl | rfl
    · exact d1.mono a2
    · exact d2
  obtain ⟨a3, b3, c3, d3⟩ := b2.op h3 (as := [sa, sb]) (op := .infer) (vs := [encShape va.shape, encShape vb.shape]) (v := encShape v.shape) rfl rfl rfl rfl
    (.cons (Evals.mono a2 b1.closed c1) (.cons c2 .nil)) (by
      show (do let s ← readShape (encShape va.shape); let t ← readShape (encShape vb.shape); let r ← inferBinOpShape s t; Except.ok (encShape r)) = _
      rw [readShape_enc, readShape_enc]
      show (do let r ← inferBinOpShape va.shape vb.shape; Except.ok (encShape r)) = _
      rw [inferBinOpShape_spec hc hf.1 (commonShape_pos hc hf.2.1 hf.2.2)]
      rfl) (by simp) trivial (by simpa [fixedIn] using hst) (by simp)
  have hg := (a1.trans a2).trans a3
  obtain ⟨a4, b4, c4, _⟩ := b3.op h4 (as := [a, b]) rfl rfl rfl rfl (.cons (Evals.mono hg hi.closed ha) (.cons (Evals.mono hg hi.closed hb) .nil)) hr (by
    intro s' hs'
    simp only [Option.some.injEq] at hs'
    subst hs'
    exact ⟨c3, .app d3 fun z hz => (hst z hz).mono a3⟩) hok (by simp [hfix]) (by simp [hns])
  exact ⟨hg.trans a4, b4, c4⟩

theorem SInv.const {g g' : Graph POp} (hi : SInv B F N g) {s : List Int} {op : POp} {t : Nat} (h : construct hintOps g (.const s op) = .ok (g', t))
    {v : Arr ℝ} (hr : op.run [] = .ok v) (hs : s = v.shape.map (fun n : Nat => (n : Int))) (hok : SOk B op []) (hfix : fixedIn op [] = []) :
    Grows g g' ∧ SInv B F N g' ∧ Evals (setting F N) g' t v := by
  have hns : op ≠ .shape ∧ op ≠ .size := ⟨by rintro rfl; exact hok, by rintro rfl; exact hok⟩
  simp only [construct, bind_ok] at h
  obtain ⟨⟨g1, s'⟩, h1, h2⟩ := h
  obtain ⟨a1, b1, c1, d1⟩ := hi.op h1 (as := []) (vs := []) (v := encShape v.shape) rfl rfl rfl rfl .nil (by
    show Except.ok (vec (s.map (fun n : Int => (n : ℝ)))) = _
    rw [hs, List.map_map]; rfl) (by simp) trivial (by simp [hintOps, fixedIn]) (by simp [hintOps])
  obtain ⟨a2, b2, c2, _⟩ := b1.op h2 (as := []) (vs := []) rfl rfl rfl rfl .nil hr (by
    intro s'' hs'
    simp only [Option.some.injEq] at hs'
    subst hs'
    exact ⟨c1, .app d1 (by simp)⟩) hok (by simp [hfix]) (by simp [hns])
  exact ⟨a1.trans a2, b2, c2⟩

theorem SInv.scalar {g g' : Graph POp} (hi : SInv B F N g) {op : POp} {t : Nat} (h : construct hintOps g (.scalar op) = .ok (g', t))
    {v : Arr ℝ} (hr : op.run [] = .ok v) (hs : v.shape = []) (hok : SOk B op []) (hfix : fixedIn op [] = []) :
    Grows g g' ∧ SInv B F N g' ∧ Evals (setting F N) g' t v := by
  have hns : op ≠ .shape ∧ op ≠ .size := ⟨by rintro rfl; exact hok, by rintro rfl; exact hok⟩
  simp only [construct, bind_ok] at h
  obtain ⟨⟨g1, s'⟩, h1, ⟨g2, s2⟩, h2, h3⟩ := h
  obtain ⟨a1, b1, c1, d1⟩ := hi.op h1 (as := []) (vs := []) (v := encShape [0]) rfl rfl rfl rfl .nil (by
    show Except.ok (vec ([0].map (fun n : Int => (n : ℝ)))) = _
    simp [encShape]) (by simp) trivial (by simp [hintOps, fixedIn]) (by simp [hintOps])
  obtain ⟨a2, b2, c2, d2⟩ := b1.op h2 (as := []) (vs := []) (v := encShape []) rfl rfl rfl rfl .nil rfl (by
    intro s'' hs'
    simp only [Option.some.injEq] at hs'
    subst hs'
    exact ⟨c1, .app d1 (by simp)⟩) trivial (by simp [hintOps, fixedIn]) (by simp [hintOps])
  obtain ⟨a3, b3, c3, _⟩ := b2.op h3 (as := []) (vs := []) rfl rfl rfl rfl .nil hr (by
    intro s'' hs'
    simp only [Option.some.injEq] at hs'
    subst hs'
    rw [hs]; exact ⟨c2, .app d2 (by simp)⟩) hok (by simp [hfix]) (by simp [hns])
  exact ⟨(a1.trans a2).trans a3, b3, c3⟩

theorem SInv.variable_ {g g' : Graph POp} (hi : SInv B F N g) {vid t : Nat} (h : construct hintOps g (.var vid) = .ok (g', t))
    {v : Arr ℝ} (hv : N[vid]? = some v) : Grows g g' ∧ SInv B F N g' ∧ Evals (setting F N) g' t v := by
  obtain ⟨hg, hc, he⟩ := hi.toCInv.variable_ h hv
  refine ⟨hg, ?_, he⟩
  have hr : Props.Reachable hintOps.toOps g' := .cmd (c := .var vid) (t := t) hi.reach h
  simp only [construct, variableById] at h
  split at h
  · cases h; exact hi
  · simp only [bind_ok] at h
    obtain ⟨⟨g1, t1⟩, h1, h2⟩ := h
    have h3 := Prod.mk.inj (Except.ok.inj h2)
    obtain ⟨rfl, rfl⟩ := h3
    exact hi.add (g'' := { g1 with var2node := fun v => if v = vid then some t1 else g1.var2node v }) h1 rfl hc hr (by simp)
      (fun r => .leaf (.inl rfl) rfl rfl rfl (.inr (by simp [Builder.toNode]))) (by simp)

end

theorem SInv.placeholder {fs : List (String × Arr ℝ)} {N : List (Arr ℝ)} {g g' : Graph POp} (hi : SInv B (named fs) N g) {name : String} {s : List Int} {t : Nat}
    (h : construct hintOps g (.placeholder name s) = .ok (g', t)) {v : Arr ℝ} (hf : FedAs fs name v) (hs : ShapeAccepts s v.shape)
    (hd : s.head? = some (-1) ∨ ∀ d ∈ s, d ≠ -1) : Grows g g' ∧ SInv B (named fs) N g' ∧ Evals (setting (named fs) N) g' t v := by
  obtain ⟨hg, hc, he⟩ := hi.toCInv.placeholder h hf hs hd
  refine ⟨hg, ?_, he⟩
  have hr : Props.Reachable hintOps.toOps g' := .cmd (c := .placeholder name s) (t := t) hi.reach h
  simp only [construct, Graph.placeholder, bind_ok] at h
  obtain ⟨⟨g1, hint⟩, h1, ks, h2, h3⟩ := h
  have i1 : SInv B (named fs) N g1 ∧ ∀ c, hint = some c → Static g1 c := by
    unfold placeholderHint at h1
    split at h1
    · simp only [bind_ok] at h1
      obtain ⟨⟨ga, sh⟩, k1, ⟨gb, c⟩, k2, k3⟩ := h1
      obtain ⟨rfl, rfl⟩ := Prod.mk.inj (Except.ok.inj k3)
      obtain ⟨a1, b1, c1, d1⟩ := hi.op k1 (as := []) (vs := []) (v := encShape [s.length]) rfl rfl rfl rfl .nil (by
        show Except.ok (vec ([(s.length : Int)].map (fun n : Int => (n : ℝ)))) = _
        simp [encShape]) (by simp) trivial (by simp [hintOps, fixedIn]) (by simp [hintOps])
      obtain ⟨a2, b2, c2, d2⟩ := b1.op k2 (as := []) (vs := []) (v := vec (s.map (fun n : Int => (n : ℝ)))) rfl rfl rfl rfl .nil rfl (by
        intro s'' hs'
        simp only [Option.some.injEq] at hs'
        subst hs'
        have : (vec (s.map (fun n : Int => (n : ℝ)))).shape = [s.length] := by simp [vec_shape]
        rw [this]; exact ⟨c1, .app d1 (by simp)⟩) trivial (by simp [hintOps, fixedIn]) (by simp [hintOps])
      exact ⟨b2, fun c' hc' => by cases hc'; exact .app d2 (by simp)⟩
    · cases h1
      exact ⟨hi, by simp⟩
  exact i1.1.add h3 rfl hc hr (by simp) (fun r => .leaf (.inr rfl) rfl rfl rfl (.inl (by simp [Builder.toNode]))) i1.2

section
variable {B : Bool} {F : List (Feed (Arr ℝ))} {N : List (Arr ℝ)}

/-- An elementwise op. -/
theorem SInv.un {g g' : Graph POp} (hi : SInv B F N g) {op : EOp} {x t : Nat} (h : construct hintOps g (unCtor op x) = .ok (g', t)) {v : Arr ℝ}
    (hx : Evals (setting F N) g x v) (hok : SOk B (.un op) [v]) : Grows g g' ∧ SInv B F N g' ∧ Evals (setting F N) g' t (op.compute v) := by
  have hfix : fixedIn (.un op) [x] = [] := rfl
  have hp : unCtor op x = .plain (.un op) ([x].map inp) ∨ unCtor op x = .like (.un op) ([x].map inp) x := by
    cases op <;> first | exact .inl rfl | exact .inr rfl
  rcases hp with e | e <;> rw [e] at h
  · exact hi.plain h (.cons hx .nil) rfl hok (by simp [hfix])
  · exact hi.like h (.cons hx .nil) rfl hx rfl hok hfix

end

end Verif.Prog
