import Verif.Lemmas.ProgramBuilds
import Verif.Lemmas.ProgramSafe
import Verif.Spec.Calls

/-! Values of the tensors of a program. -/

namespace Verif.Prog
open Verif Verif.Graph Verif.Nd Verif.Hint Verif.Gradient Verif.Spec Verif.Eval

/-! ## Calls as applications of ops -/

/-- Op and arguments of a call, except for variables, placeholders and shapes. -/
noncomputable def Stmt.app : Stmt → Option (POp × List Nat)
  | .var _ => none
  | .placeholder _ _ => none
  | .const a => some (.const a, [])
  | .scalar c => some (.scalar c, [])
  | .add a b => some (.add, [a, b])
  | .sub a b => some (.sub, [a, b])
  | .mul a b => some (.mul, [a, b])
  | .div a b => some (.div, [a, b])
  | .un op x => some (.un op, [x])
  | .matmul a b => some (.matMul false false, [a, b])
  | .sumAll x => some (.sumAll, [x])
  | .reduceSum x axes keep => some (.reduceSum keep, [x, axes])
  | .addN x y zs => some (.addN, x :: y :: zs)
  | .shapeOf _ => none
  | .sizeOf x => some (.size, [x])
  | .reduceMean x axes keep => some (.reduceMean keep, [x, axes])
  | .softmax bot lay x axis => some (.softmax bot lay axis, [x])
  | .logSoftmax bot lay x axis => some (.logSoftmax bot lay axis, [x])
  | .sigmoidCE x t => some (.sigmoidCE, [x, t])
  | .sparseCE bot lay x t => some (.sparseCE bot lay, [x, t])
  | .zeros s => some (.zeros, [s])
  | .ones s => some (.ones, [s])
  | .ident x => some (.ident, [x])
  | .slice x starts stops => some (.slice starts stops, [x])
  | .squeeze x axes => some (.squeeze, [x, axes])
  | .transpose x axes => some (.transpose false, [x, axes])
  | .hook x => some (.ident, [x])
  | .extremum mx a b => some (.extremum mx, [a, b])
  | .reduceExt mx lim x axes keep => some (.reduceExt mx lim keep, [x, axes])
  | .stopGradient x => some (.stop, [x])
  | .reshape x s => some (.reshape, [x, s])
  | .gather normalize indices param axis => some (.gather normalize axis, [indices, param])
  | .expandDims x axes => some (.expandDims, [x, axes])
  | .conv2d pad stride dil x w => some (.conv2d pad stride dil, [x, w])
  | .maxPool bot k pad stride x => some (.maxPool bot k pad stride, [x])
  | .dropout train ratio mask x => some (.dropout train ratio mask, [x])
  | .argMax bot lay x axis keep => some (.argMax bot lay axis keep, [x])
  | .cmp c a b => some (.cmp c, [a, b])

theorem app_args {s : Stmt} {op : POp} {as : List Nat} (h : s.app = some (op, as)) : as = s.args := by
  cases s <;> simp only [Stmt.app, reduceCtorEq, Option.some.injEq, Prod.mk.injEq] at h <;> exact h.2.symm

theorem app_rename (f : Nat → Nat) (s : Stmt) : (s.rename f).app = s.app.map (fun p => (p.1, p.2.map f)) := by
  cases s <;> rfl

theorem app_none {s : Stmt} (h : s.app = none) : (∃ v, s = .var v) ∨ (∃ n d, s = .placeholder n d) ∨ ∃ x, s = .shapeOf x := by
  cases s <;> simp [Stmt.app] at h ⊢

theorem rename_congr {f f' : Nat → Nat} {s : Stmt} (h : ∀ a ∈ s.args, f a = f' a) : s.rename f = s.rename f' := by
  cases s <;> simp only [Stmt.args, List.mem_cons, List.not_mem_nil, or_false, forall_eq_or_imp, forall_eq] at h <;> simp_all [Stmt.rename]

theorem sumAll_total (x : Arr ℝ) : Nd.sumAll x = ofFn [] (fun _ => total x) := by
  rw [Nd.sumAll, sum_toList]; rfl

theorem cmpFn_truth (c : Cmp) : (fun u v : ℝ => truth (Compares c u v)) = cmpFn c := by
  funext u v
  cases c <;> simp only [truth, Compares, cmpFn, equalFn, greaterFn, gt_iff_lt, ge_iff_le] <;> first | rfl | congr | (split_ifs <;> simp_all)

/-- What a call returns is what its op computes. -/
theorem returns_iff {fs : List (String × Arr ℝ)} {env : List (Arr ℝ)} {val : Nat → Arr ℝ} {v : Arr ℝ} {s : Stmt} {op : POp} {as : List Nat}
    (h : s.app = some (op, as)) : Returns fs env val v s ↔ op.run (as.map val) = .ok v := by
  have hok : ∀ a b : Arr ℝ, a = b ↔ (Except.ok b : Res (Arr ℝ)) = .ok a := fun a b => ⟨fun h => by rw [h], fun h => (Except.ok.inj h).symm⟩
  cases s <;> simp only [Stmt.app, reduceCtorEq, Option.some.injEq, Prod.mk.injEq] at h <;> obtain ⟨rfl, rfl⟩ := h
  case sumAll x =>
    show v = _ ↔ Except.ok (Nd.sumAll (val x)) = .ok v
    rw [sumAll_total]; exact hok _ _
  case reduceExt mx lim x axes keep => cases mx <;> exact Iff.rfl
  case cmp c a b =>
    show cmpOp _ (val a) (val b) = .ok v ↔ cmpOp (cmpFn c) (val a) (val b) = .ok v
    rw [cmpFn_truth]
  case sizeOf x =>
    show v = _ ↔ Except.ok _ = .ok v
    rw [card_idxs]; exact hok _ _
  case sparseCE bot lay x t =>
    show (∃ logp, Nd.sparseCE bot (lay (val x)) (val x) (val t) = .ok (v, logp)) ↔ (do let r ← Nd.sparseCE bot (lay (val x)) (val x) (val t); Except.ok r.1) = .ok v
    cases Nd.sparseCE bot (lay (val x)) (val x) (val t) with
    | error e => simp [bind, Except.bind]
    | ok r =>
      obtain ⟨r1, r2⟩ := r
      simp [bind, Except.bind]
  case zeros t =>
    show (∃ t', readShape (val t) = .ok t' ∧ v = ofFn t' (fun _ => 0)) ↔ (do let t' ← readShape (val t); Except.ok (ofFn t' (fun _ => 0))) = .ok v
    cases readShape (val t) with
    | error e => simp [bind, Except.bind]
    | ok r => simp [bind, Except.bind, eq_comm]
  case ones t =>
    show (∃ t', readShape (val t) = .ok t' ∧ v = ofFn t' (fun _ => 1)) ↔ (do let t' ← readShape (val t); Except.ok (ofFn t' (fun _ => 1))) = .ok v
    cases readShape (val t) with
    | error e => simp [bind, Except.bind]
    | ok r => simp [bind, Except.bind, eq_comm]
  case conv2d pad stride dil x w =>
    show (∃ cols, Nd.conv2d (val x) (val w) pad stride dil = .ok (v, cols)) ↔ (do let r ← Nd.conv2d (val x) (val w) pad stride dil; Except.ok r.1) = .ok v
    cases Nd.conv2d (val x) (val w) pad stride dil with
    | error e => simp [bind, Except.bind]
    | ok r =>
      obtain ⟨r1, r2⟩ := r
      simp [bind, Except.bind]
  case maxPool bot k pad stride x =>
    show (∃ ind, Nd.maxPool false bot (val x) k pad stride = .ok (v, ind)) ↔ (do let r ← Nd.maxPool false bot (val x) k pad stride; Except.ok r.1) = .ok v
    cases Nd.maxPool false bot (val x) k pad stride with
    | error e => simp [bind, Except.bind]
    | ok r =>
      obtain ⟨r1, r2⟩ := r
      simp [bind, Except.bind]
  case dropout train ratio mask x =>
    cases train with
    | false => exact hok _ _
    | true => exact Iff.rfl
  all_goals first | exact Iff.rfl | exact hok _ _

/-! ## From numbers of calls to tensors -/

/-- Arguments are results of earlier calls, of which there are already `n`. -/
def ScopedFrom (n : Nat) (l : List Stmt) : Prop := ∀ (k : Nat) (s : Stmt), l[k]? = some s → ∀ a ∈ s.args, a < n + k

theorem scopedFrom_tail {n : Nat} {s : Stmt} {l : List Stmt} (h : ScopedFrom n (s :: l)) : (∀ a ∈ s.args, a < n) ∧ ScopedFrom (n + 1) l :=
  ⟨fun a ha => h 0 s rfl a ha, fun k s' hk a ha => by have := h (k + 1) s' hk a ha; omega⟩

theorem buildFrom_run : ∀ {l : List Stmt} {g g' : Graph POp} {ids ids' : List Nat}, buildFrom l g ids = .ok (g', ids') → ScopedFrom ids.length l →
    ∃ ts, ids' = ids ++ ts ∧ ts.length = l.length ∧
      constructAll hintOps g ((l.map (Stmt.rename (fun k => ids'.getD k 0))).map Stmt.ctor) = .ok (g', ts) := by
  intro l
  induction l with
  | nil =>
    intro g g' ids ids' h _
    cases h
    exact ⟨[], by simp, rfl, rfl⟩
  | cons s l ih =>
    intro g g' ids ids' h hs
    simp only [buildFrom, bind_ok] at h
    obtain ⟨⟨g1, t⟩, h1, h2⟩ := h
    obtain ⟨ha, hs'⟩ := scopedFrom_tail hs
    obtain ⟨ts, rfl, hl, hc⟩ := ih h2 (by simpa using hs')
    refine ⟨t :: ts, by simp, by simp [hl], ?_⟩
    have : s.rename (fun k => (ids ++ [t] ++ ts).getD k 0) = s.rename (fun k => ids.getD k 0) := by
      refine rename_congr fun a h => ?_
      have := ha a h
      simp [List.getD_eq_getElem?_getD, this, List.getElem?_append_left]
    simp only [List.map_cons, constructAll, this, h1, hc, bind, Except.bind]

theorem buildCalls_run {l : List Stmt} {g : Graph POp} {ids : List Nat} (h : buildCalls l = .ok (g, ids)) (hs : Scoped l) :
    ids.length = l.length ∧ runProgram (l.map (Stmt.rename (fun k => ids.getD k 0))) = .ok (g, ids) := by
  obtain ⟨ts, e, hl, hc⟩ := buildFrom_run h (by intro k s hk a ha; have := hs k s hk a ha; simpa using this)
  simp only [List.nil_append] at e
  subst e
  exact ⟨hl, hc⟩

/-! ## Values -/

/-- Every tensor has a value, recorded shape tensors hold the shapes of the values, and variables are found. -/
structure CInv (S : Setting POp Unit (Arr ℝ)) (g : Graph POp) : Prop where
  closed : InputsExist g
  vals : ∀ n, n < g.nodes.length → ∃ v, Evals S g n v ∧ Hinted S g n v.shape
  vars : ∀ vid tid, g.var2node vid = some tid → ∃ nd, g.nodes[tid]? = some nd ∧ nd.variableId = some vid ∧ nd.placeholderName = none

section
variable {F : List (Feed (Arr ℝ))} {N : List (Arr ℝ)}

theorem cinv_empty : CInv (setting F N) (Graph.empty : Graph POp) :=
  ⟨by intro k n h; simp [Graph.empty] at h, by intro n h; simp [Graph.empty] at h, by intro v t h; simp [Graph.empty] at h⟩

theorem CInv.hinted {g : Graph POp} (hi : CInv (setting F N) g) {x : Nat} {v : Arr ℝ} (h : Evals (setting F N) g x v) : Hinted (setting F N) g x v.shape := by
  obtain ⟨w, h1, h2⟩ := hi.vals x (evals_lt h)
  rw [evals_unique' h h1]; exact h2

theorem CInv.add {g g' g'' : Graph POp} (hi : CInv (setting F N) g) {b : Builder} {op : POp} {t : Nat} (hb : g.build b op = .ok (g', t)) {v : Arr ℝ}
    (hn : g''.nodes = g'.nodes) (hv : Evals (setting F N) g'' t v) (hh : ∀ s, b.shape = some s → Evals (setting F N) g s (encShape v.shape))
    (hvar : ∀ vid tid, g''.var2node vid = some tid → g.var2node vid = some tid ∨ tid = t ∧ b.variableId = some vid ∧ b.placeholderName = none) :
    Grows g g'' ∧ CInv (setting F N) g'' := by
  have hg1 := build_grows hb
  have hg : Grows g g'' := ⟨fun i n hin => by rw [hn]; exact hg1.1 i n hin, fun hc id n hin i hii => by rw [hn] at hin ⊢; exact hg1.2 hc id n hin i hii⟩
  obtain ⟨r, hr, _, rfl, _, e⟩ := build_ok hb
  rw [← hn] at e
  refine ⟨hg, hg.2 hi.closed, ?_, ?_⟩
  · intro n hlt
    rw [e] at hlt
    by_cases h1 : n < g.nodes.length
    · obtain ⟨w, a, c⟩ := hi.vals n h1
      exact ⟨w, Evals.mono hg hi.closed a, c.grows hg hi.closed h1⟩
    · have : n = g.nodes.length := by simp at hlt; omega
      subst this
      refine ⟨v, hv, fun nd s hnd hs => ?_⟩
      rw [e] at hnd
      simp at hnd
      subst hnd
      exact Evals.mono hg hi.closed (hh s hs)
  · intro vid tid h
    rcases hvar vid tid h with h | ⟨rfl, h1, h2⟩
    · obtain ⟨nd, a, b⟩ := hi.vars vid tid h
      exact ⟨nd, hg.1 _ _ a, b⟩
    · exact ⟨b.toNode op r, by rw [e]; simp, h1, h2⟩

theorem CInv.op {g g' : Graph POp} (hi : CInv (setting F N) g) {b : Builder} {op : POp} {t : Nat} (hb : g.build b op = .ok (g', t)) {as : List Nat}
    {vs : List (Arr ℝ)} {v : Arr ℝ} (h1 : b.inNodes = as.map inp) (h2 : b.placeholderName = none) (h3 : b.variableId = none)
    (ha : List.Forall₂ (Evals (setting F N) g) as vs) (hr : op.run vs = .ok v)
    (hh : ∀ s, b.shape = some s → Evals (setting F N) g s (encShape v.shape)) : Grows g g' ∧ CInv (setting F N) g' ∧ Evals (setting F N) g' t v := by
  have hg := build_grows hb
  have he : Evals (setting F N) g' t v := evals_run (build_isApp hb h1 h2 h3) (ha.imp fun _ _ h => Evals.mono hg hi.closed h) hr
  obtain ⟨a, c⟩ := hi.add hb rfl he hh (fun vid tid h => by
    obtain ⟨_, _, _, _, e, _⟩ := build_ok hb
    rw [e] at h; exact .inl h)
  exact ⟨a, c, he⟩

theorem CInv.shape {g g' : Graph POp} (hi : CInv (setting F N) g) {x s : Nat} (h : Hint.shape hintOps g x = .ok (g', s)) {v : Arr ℝ}
    (hx : Evals (setting F N) g x v) : Grows g g' ∧ CInv (setting F N) g' ∧ Evals (setting F N) g' s (encShape v.shape) := by
  simp only [Hint.shape, bind_ok] at h
  obtain ⟨n, hn, h⟩ := h
  have hn' := access_some.1 hn
  cases hs : n.shape with
  | some s' =>
    simp only [hs, Except.ok.injEq, Prod.mk.injEq] at h
    obtain ⟨rfl, rfl⟩ := h
    exact ⟨grows_refl _, hi, hi.hinted hx n _ hn' hs⟩
  | none =>
    simp only [hs] at h
    exact hi.op h (as := [x]) rfl rfl rfl (.cons hx .nil) rfl (by simp)

theorem CInv.like {g g' : Graph POp} (hi : CInv (setting F N) g) {op : POp} {as : List Nat} {x t : Nat} (h : construct hintOps g (.like op (as.map inp) x) = .ok (g', t))
    {vs : List (Arr ℝ)} {v w : Arr ℝ} (ha : List.Forall₂ (Evals (setting F N) g) as vs) (hr : op.run vs = .ok v) (hx : Evals (setting F N) g x w)
    (hw : v.shape = w.shape) : Grows g g' ∧ CInv (setting F N) g' ∧ Evals (setting F N) g' t v := by
  simp only [construct, bind_ok] at h
  obtain ⟨⟨g1, s⟩, h1, h2⟩ := h
  obtain ⟨a, b, c⟩ := hi.shape h1 hx
  obtain ⟨a', b', c'⟩ := b.op h2 rfl rfl rfl (ha.imp fun _ _ h => Evals.mono a hi.closed h) hr (by
    intro s' hs'
    simp only [Option.some.injEq] at hs'
    subst hs'
    rw [hw]; exact c)
  exact ⟨a.trans a', b', c'⟩

theorem CInv.binary {g g' : Graph POp} (hi : CInv (setting F N) g) {op : POp} {a b t : Nat} (h : construct hintOps g (.binary op a b) = .ok (g', t))
    {va vb v : Arr ℝ} (ha : Evals (setting F N) g a va) (hb : Evals (setting F N) g b vb) (hr : op.run [va, vb] = .ok v) (hc : CommonShape va.shape vb.shape v.shape)
    (hf : Inferable va.shape vb.shape) : Grows g g' ∧ CInv (setting F N) g' ∧ Evals (setting F N) g' t v := by
  simp only [construct, bind_ok] at h
  obtain ⟨⟨g1, sa⟩, h1, ⟨g2, sb⟩, h2, ⟨g3, s⟩, h3, h4⟩ := h
  obtain ⟨a1, b1, c1⟩ := hi.shape h1 ha
  obtain ⟨a2, b2, c2⟩ := b1.shape h2 (Evals.mono a1 hi.closed hb)
  obtain ⟨a3, b3, c3⟩ := b2.op h3 (as := [sa, sb]) (vs := [encShape va.shape, encShape vb.shape]) (v := encShape v.shape) rfl rfl rfl
    (.cons (Evals.mono a2 b1.closed c1) (.cons c2 .nil)) (by
      show (do let s ← readShape (encShape va.shape); let t ← readShape (encShape vb.shape); let r ← inferBinOpShape s t; Except.ok (encShape r)) = _
      rw [readShape_enc, readShape_enc]
      show (do let r ← inferBinOpShape va.shape vb.shape; Except.ok (encShape r)) = _
      rw [inferBinOpShape_spec hc hf.1 (commonShape_pos hc hf.2.1 hf.2.2)]
      rfl) (by simp)
  have hg := (a1.trans a2).trans a3
  obtain ⟨a4, b4, c4⟩ := b3.op h4 (as := [a, b]) rfl rfl rfl (.cons (Evals.mono hg hi.closed ha) (.cons (Evals.mono hg hi.closed hb) .nil)) hr (by
    intro s' hs'
    simp only [Option.some.injEq] at hs'
    subst hs'
    exact c3)
  exact ⟨hg.trans a4, b4, c4⟩

theorem CInv.const {g g' : Graph POp} (hi : CInv (setting F N) g) {s : List Int} {op : POp} {t : Nat} (h : construct hintOps g (.const s op) = .ok (g', t))
    {v : Arr ℝ} (hr : op.run [] = .ok v) (hs : s = v.shape.map (fun n : Nat => (n : Int))) : Grows g g' ∧ CInv (setting F N) g' ∧ Evals (setting F N) g' t v := by
  simp only [construct, bind_ok] at h
  obtain ⟨⟨g1, s'⟩, h1, h2⟩ := h
  obtain ⟨a1, b1, c1⟩ := hi.op h1 (as := []) (vs := []) (v := encShape v.shape) rfl rfl rfl .nil (by
    show Except.ok (vec (s.map (fun n : Int => (n : ℝ)))) = _
    rw [hs, List.map_map]; rfl) (by simp)
  obtain ⟨a2, b2, c2⟩ := b1.op h2 (as := []) (vs := []) rfl rfl rfl .nil hr (by
    intro s'' hs'
    simp only [Option.some.injEq] at hs'
    subst hs'
    exact c1)
  exact ⟨a1.trans a2, b2, c2⟩

theorem CInv.scalar {g g' : Graph POp} (hi : CInv (setting F N) g) {op : POp} {t : Nat} (h : construct hintOps g (.scalar op) = .ok (g', t))
    {v : Arr ℝ} (hr : op.run [] = .ok v) (hs : v.shape = []) : Grows g g' ∧ CInv (setting F N) g' ∧ Evals (setting F N) g' t v := by
  simp only [construct, bind_ok] at h
  obtain ⟨⟨g1, s'⟩, h1, ⟨g2, s2⟩, h2, h3⟩ := h
  obtain ⟨a1, b1, c1⟩ := hi.op h1 (as := []) (vs := []) (v := encShape [0]) rfl rfl rfl .nil (by
    show Except.ok (vec ([0].map (fun n : Int => (n : ℝ)))) = _
    simp [encShape]) (by simp)
  obtain ⟨a2, b2, c2⟩ := b1.op h2 (as := []) (vs := []) (v := encShape []) rfl rfl rfl .nil rfl (by
    intro s'' hs'
    simp only [Option.some.injEq] at hs'
    subst hs'
    exact c1)
  obtain ⟨a3, b3, c3⟩ := b2.op h3 (as := []) (vs := []) rfl rfl rfl .nil hr (by
    intro s'' hs'
    simp only [Option.some.injEq] at hs'
    subst hs'
    rw [hs]; exact c2)
  exact ⟨(a1.trans a2).trans a3, b3, c3⟩

theorem CInv.variable_ {g g' : Graph POp} (hi : CInv (setting F N) g) {vid t : Nat} (h : construct hintOps g (.var vid) = .ok (g', t))
    {v : Arr ℝ} (hv : N[vid]? = some v) : Grows g g' ∧ CInv (setting F N) g' ∧ Evals (setting F N) g' t v := by
  simp only [construct, variableById] at h
  split at h
  · rename_i tid ht
    cases h
    obtain ⟨nd, a, b, c⟩ := hi.vars vid _ ht
    exact ⟨grows_refl _, hi, .variable_ a b hv, fun n hn _ => by rw [a] at hn; cases hn; exact c⟩
  · simp only [bind_ok] at h
    obtain ⟨⟨g1, t1⟩, h1, h2⟩ := h
    have h3 := Prod.mk.inj (Except.ok.inj h2)
    obtain ⟨r, hn⟩ := build_node h1
    obtain ⟨rfl, rfl⟩ := h3
    have he : Evals (setting F N) { g1 with var2node := fun v => if v = vid then some t1 else g1.var2node v } t1 v :=
      ⟨.variable_ hn rfl hv, fun n hn' _ => by
        have hn' : g1.nodes[t1]? = some n := hn'
        rw [hn] at hn'; cases hn'; rfl⟩
    obtain ⟨a, c⟩ := hi.add (g'' := { g1 with var2node := fun v => if v = vid then some t1 else g1.var2node v }) h1 rfl he (by simp) (fun w tid h => by
      simp only at h
      split at h
      · rename_i hw
        subst hw
        cases h
        exact .inr ⟨rfl, rfl, rfl⟩
      · obtain ⟨_, _, _, _, e, _⟩ := build_ok h1
        rw [e] at h; exact .inl h)
    exact ⟨a, c, he⟩

end

theorem fedAs_first {fs : List (String × Arr ℝ)} {name : String} {v : Arr ℝ} (h : FedAs fs name v) (id : Nat) : FirstFeed id name (named fs) v := by
  obtain ⟨pre, post, rfl, h⟩ := h
  refine ⟨named pre, ⟨.name name, v⟩, named post, by simp [named], .inr rfl, rfl, ?_⟩
  intro f hf
  obtain ⟨f', hf', rfl⟩ := List.mem_map.1 hf
  rintro (h' | h')
  · cases h'
  · exact h f' hf' (by injection h')

theorem first_fedAs {fs : List (String × Arr ℝ)} {name : String} {v : Arr ℝ} {id : Nat} (h : FirstFeed id name (named fs) v) : FedAs fs name v := by
  obtain ⟨pre, f, post, e, hm, hv, h⟩ := h
  obtain ⟨fp, ft, rfl, rfl, e2⟩ := List.map_eq_append_iff.1 e
  obtain ⟨f', fq, rfl, rfl, rfl⟩ := List.map_eq_cons_iff.1 e2
  rcases hm with hm | hm
  · cases hm
  · have hn : f'.1 = name := by injection hm
    have hv : f'.2 = v := hv
    refine ⟨fp, fq, by rw [← hn, ← hv], fun x hx hxn => ?_⟩
    exact h _ (List.mem_map_of_mem hx) (.inr (by rw [hxn]))

theorem CInv.placeholder {fs : List (String × Arr ℝ)} {N : List (Arr ℝ)} {g g' : Graph POp} (hi : CInv (setting (named fs) N) g) {name : String} {s : List Int} {t : Nat}
    (h : construct hintOps g (.placeholder name s) = .ok (g', t)) {v : Arr ℝ} (hf : FedAs fs name v) (hs : ShapeAccepts s v.shape)
    (hd : s.head? = some (-1) ∨ ∀ d ∈ s, d ≠ -1) : Grows g g' ∧ CInv (setting (named fs) N) g' ∧ Evals (setting (named fs) N) g' t v := by
  simp only [construct, Graph.placeholder, bind_ok] at h
  obtain ⟨⟨g1, hint⟩, h1, ks, h2, h3⟩ := h
  have hks : ks = s := by
    unfold knownShapeNew at h2
    split at h2
    · cases h2; rfl
    · cases h2
  subst hks
  have i1 : Grows g g1 ∧ CInv (setting (named fs) N) g1 ∧ ∀ c, hint = some c → Evals (setting (named fs) N) g1 c (encShape v.shape) := by
    unfold placeholderHint at h1
    split at h1
    · rename_i hc
      simp only [bind_ok] at h1
      obtain ⟨⟨ga, sh⟩, k1, ⟨gb, c⟩, k2, k3⟩ := h1
      obtain ⟨rfl, rfl⟩ := Prod.mk.inj (Except.ok.inj k3)
      have hall : ∀ d ∈ ks, d ≠ -1 := by
        rcases hd with hd | hd
        · exfalso
          cases ks with
          | nil => cases hd
          | cons d ds => simp at hd; subst hd; simp at hc
        · exact hd
      have hlist : ks.map (fun n : Int => (n : ℝ)) = v.shape.map (fun n : Nat => (n : ℝ)) := by
        apply List.ext_getElem?
        intro j
        rw [List.getElem?_map, List.getElem?_map]
        by_cases hj : j < ks.length
        · have hj' : j < v.shape.length := by rw [← hs.1]; exact hj
          rw [List.getElem?_eq_getElem hj, List.getElem?_eq_getElem hj']
          rcases hs.2 j _ _ (List.getElem?_eq_getElem hj) (List.getElem?_eq_getElem hj') with e | e
          · exact absurd e (hall _ (List.getElem_mem _))
          · simp [e]
        · rw [List.getElem?_eq_none (by omega), List.getElem?_eq_none (by rw [← hs.1]; omega)]
          rfl
      obtain ⟨a1, b1, c1⟩ := hi.op k1 (as := []) (vs := []) (v := encShape [ks.length]) rfl rfl rfl .nil (by
        show Except.ok (vec ([(ks.length : Int)].map (fun n : Int => (n : ℝ)))) = _
        simp [encShape]) (by simp)
      obtain ⟨a2, b2, c2⟩ := b1.op k2 (as := []) (vs := []) (v := encShape v.shape) rfl rfl rfl .nil (by
        show Except.ok (vec (ks.map (fun n : Int => (n : ℝ)))) = _
        rw [hlist]; rfl) (by
        intro s'' hs'
        simp only [Option.some.injEq] at hs'
        subst hs'
        have : (encShape v.shape).shape = [ks.length] := by simp [encShape, vec_shape, hs.1]
        rw [this]; exact c1)
      exact ⟨a1.trans a2, b2, fun c' hc' => by cases hc'; exact c2⟩
    · cases h1
      exact ⟨grows_refl _, hi, by simp⟩
  obtain ⟨a1, b1, c1⟩ := i1
  obtain ⟨r, hn⟩ := build_node h3
  have he : Evals (setting (named fs) N) g' t v :=
    ⟨.placeholder hn rfl ⟨name, ks, rfl, rfl, fedAs_first hf t, hs⟩, fun n hn' hv => by rw [hn] at hn'; cases hn'; exact absurd rfl hv⟩
  obtain ⟨a, c⟩ := b1.add h3 rfl he c1 (fun w tid h => by
    obtain ⟨_, _, _, _, e, _⟩ := build_ok h3
    rw [e] at h; exact .inl h)
  exact ⟨a1.trans a, c, he⟩

theorem forall₂_args {P : Nat → Arr ℝ → Prop} {f : Nat → Nat} {val : Nat → Arr ℝ} : ∀ {as : List Nat}, (∀ a ∈ as, P (f a) (val a)) →
    List.Forall₂ P (as.map f) (as.map val)
  | [], _ => .nil
  | a :: as, h => .cons (h a (by simp)) (forall₂_args fun x hx => h x (by simp [hx]))

/-- One call. -/
theorem CInv.call {fs : List (String × Arr ℝ)} {N : List (Arr ℝ)} {g g' : Graph POp} (hi : CInv (setting (named fs) N) g) {s : Stmt} {f : Nat → Nat} {t : Nat}
    (h : construct hintOps g (s.rename f).ctor = .ok (g', t)) {val : Nat → Arr ℝ} (ha : ∀ a ∈ s.args, Evals (setting (named fs) N) g (f a) (val a))
    (hs : StmtOk (fun _ => True) (fun _ _ => True) val s) {v : Arr ℝ} (hv : Returns fs N val v s) :
    Grows g g' ∧ CInv (setting (named fs) N) g' ∧ Evals (setting (named fs) N) g' t v := by
  have hrun : ∀ op as, s.app = some (op, as) → List.Forall₂ (Evals (setting (named fs) N) g) (as.map f) (as.map val) ∧ op.run (as.map val) = .ok v := by
    intro op as happ
    refine ⟨forall₂_args ?_, (returns_iff happ).1 hv⟩
    rw [app_args happ]
    exact ha
  have hbuild : ∀ op as, s.app = some (op, as) → (s.rename f).ctor = .plain op ((as.map f).map inp) →
      Grows g g' ∧ CInv (setting (named fs) N) g' ∧ Evals (setting (named fs) N) g' t v := by
    intro op as happ hc
    obtain ⟨h1, h2⟩ := hrun op as happ
    rw [hc] at h
    exact hi.op h rfl rfl rfl h1 h2 (by simp)
  have hlike : ∀ op as x, s.app = some (op, as) → (s.rename f).ctor = .like op ((as.map f).map inp) (f x) → x ∈ s.args → v.shape = (val x).shape →
      Grows g g' ∧ CInv (setting (named fs) N) g' ∧ Evals (setting (named fs) N) g' t v := by
    intro op as x happ hc hx hsh
    obtain ⟨h1, h2⟩ := hrun op as happ
    rw [hc] at h
    exact hi.like h h1 h2 (ha x hx) hsh
  have hbin : ∀ op a b, s.app = some (op, [a, b]) → (s.rename f).ctor = .binary op (f a) (f b) → CommonShape (val a).shape (val b).shape v.shape →
      Inferable (val a).shape (val b).shape → Grows g g' ∧ CInv (setting (named fs) N) g' ∧ Evals (setting (named fs) N) g' t v := by
    intro op a b happ hc hcs hf
    obtain ⟨h1, h2⟩ := hrun op _ happ
    rw [hc] at h
    have := app_args happ
    exact hi.binary h (ha a (by rw [← this]; simp)) (ha b (by rw [← this]; simp)) h2 hcs hf
  cases s with
  | var vid => exact hi.variable_ h hv
  | placeholder name d => exact hi.placeholder h hv.1 hv.2 hs
  | const a => exact hi.const h (v := v) (by rw [show v = a from hv]; rfl) (by rw [show v = a from hv])
  | scalar c => exact hi.scalar h (v := v) (by rw [show v = _ from hv]; rfl) (by rw [show v = _ from hv]; rfl)
  | add a b => exact hbin _ a b rfl rfl (arithmetic_common (.inl hv)) hs
  | sub a b => exact hbin _ a b rfl rfl (arithmetic_common (.inr (.inl hv))) hs
  | mul a b => exact hbin _ a b rfl rfl (arithmetic_common (.inr (.inr (.inl hv)))) hs
  | div a b => exact hbin _ a b rfl rfl (arithmetic_common (.inr (.inr (.inr hv)))) hs.1
  | un op x =>
    have hsh : v.shape = (val x).shape := by rw [show v = _ from hv]; rfl
    cases op
    case neg => exact hbuild _ _ rfl rfl
    case clip => exact hbuild _ _ rfl rfl
    all_goals exact hlike _ _ x rfl rfl (by simp [Stmt.args]) hsh
  | matmul a b => exact hbuild _ _ rfl rfl
  | sumAll x => exact hbuild _ _ rfl rfl
  | reduceSum x a keep => exact hbuild _ _ rfl rfl
  | addN x y zs =>
    refine hlike _ _ x rfl (by simp [Stmt.rename, Stmt.ctor]) (by simp [Stmt.args]) ?_
    have hsh : ∀ z ∈ x :: y :: zs, (val z).shape = (val x).shape := fun z hz => by
      rcases List.mem_cons.1 hz with rfl | hz
      · rfl
      · exact hs z hz
    obtain ⟨w, hw, hws, _⟩ := addN_value ((x :: y :: zs).map val) (val x).shape (by simp) (by
      intro w hw; obtain ⟨z, hz, rfl⟩ := List.mem_map.1 hw; exact hsh z hz)
    have hv : Nd.addN ((x :: y :: zs).map val) = .ok v := hv
    rw [hw] at hv; cases hv
    exact hws
  | shapeOf x =>
    rw [show v = _ from hv]
    exact hi.shape h (ha x (by simp [Stmt.args]))
  | sizeOf x =>
    obtain ⟨h1, h2⟩ := hrun _ _ rfl
    exact hi.op (as := [f x]) h rfl rfl rfl h1 h2 (by simp)
  | reduceMean x a keep => exact hbuild _ _ rfl rfl
  | softmax bot lay x axis => exact hbuild _ _ rfl rfl
  | logSoftmax bot lay x axis => exact hlike _ _ x rfl rfl (by simp [Stmt.args]) (logSoftmax_shape hv)
  | sigmoidCE x t => exact hlike _ _ x rfl rfl (by simp [Stmt.args]) (sigmoidCE_shape hv)
  | sparseCE bot lay x t => exact hbuild _ _ rfl rfl
  | zeros s => exact hbuild _ _ rfl rfl
  | ones s => exact hbuild _ _ rfl rfl
  | ident x => exact hlike _ _ x rfl rfl (by simp [Stmt.args]) (by rw [show v = _ from hv])
  | slice x starts stops => exact hbuild _ _ rfl rfl
  | squeeze x a => exact hbuild _ _ rfl rfl
  | transpose x a => exact hbuild _ _ rfl rfl
  | hook x => exact hbuild _ _ rfl rfl
  | extremum mx a b => exact hbuild _ _ rfl rfl
  | reduceExt mx lim x a keep => exact hbuild _ _ rfl rfl
  | stopGradient x =>
    obtain ⟨h1, h2⟩ := hrun _ _ rfl
    exact hi.op (as := [f x]) h rfl rfl rfl h1 h2 (by simp)
  | reshape x a => exact hbuild _ _ rfl rfl
  | gather norm a x axis => exact hbuild _ _ rfl rfl
  | expandDims x a => exact hbuild _ _ rfl rfl
  | conv2d pad stride dil x w => exact hbuild _ _ rfl rfl
  | maxPool bot k pad stride x => exact hbuild _ _ rfl rfl
  | dropout train ratio mask x => exact hbuild _ _ rfl rfl
  | argMax bot lay x axis keep => exact hbuild _ _ rfl rfl
  | cmp c a b => exact hbuild _ _ rfl rfl

/-- All calls. -/
theorem buildFrom_values {fs : List (String × Arr ℝ)} {N : List (Arr ℝ)} {val : Nat → Arr ℝ} : ∀ {l : List Stmt} {g g' : Graph POp} {ids ids' : List Nat},
    buildFrom l g ids = .ok (g', ids') → ScopedFrom ids.length l → CInv (setting (named fs) N) g →
    (∀ k < ids.length, Evals (setting (named fs) N) g (ids.getD k 0) (val k)) →
    (∀ s ∈ l, StmtOk (fun _ => True) (fun _ _ => True) val s) → (∀ (k : Nat) (s : Stmt), l[k]? = some s → Returns fs N val (val (ids.length + k)) s) →
    CInv (setting (named fs) N) g' ∧ ∀ k < ids'.length, Evals (setting (named fs) N) g' (ids'.getD k 0) (val k) := by
  intro l
  induction l with
  | nil =>
    intro g g' ids ids' h _ hi hv _ _
    cases h
    exact ⟨hi, hv⟩
  | cons s l ih =>
    intro g g' ids ids' h hs hi hv hok hd
    simp only [buildFrom, bind_ok] at h
    obtain ⟨⟨g1, t⟩, h1, h2⟩ := h
    obtain ⟨ha, hs'⟩ := scopedFrom_tail hs
    obtain ⟨a, b, c⟩ := hi.call h1 (val := val) (fun a h => hv a (ha a h)) (hok s (by simp)) (hd 0 s rfl)
    refine ih h2 (by simpa using hs') b ?_ (fun s hs => hok s (by simp [hs])) ?_
    · intro k hk
      simp only [List.length_append, List.length_singleton] at hk
      by_cases hk' : k < ids.length
      · have : (ids ++ [t]).getD k 0 = ids.getD k 0 := by simp [List.getD_eq_getElem?_getD, hk', List.getElem?_append_left]
        rw [this]
        exact Evals.mono a hi.closed (hv k hk')
      · have : k = ids.length := by omega
        subst this
        have : (ids ++ [t]).getD ids.length 0 = t := by simp [List.getD_eq_getElem?_getD]
        rw [this]
        exact c
    · intro k s' hk
      have := hd (k + 1) s' hk
      rwa [List.length_append, List.length_singleton, Nat.add_assoc, Nat.add_comm 1 k]

theorem buildCalls_values {fs : List (String × Arr ℝ)} {N : List (Arr ℝ)} {val : Nat → Arr ℝ} {l : List Stmt} {g : Graph POp} {ids : List Nat}
    (h : buildCalls l = .ok (g, ids)) (hs : Scoped l) (hok : ∀ s ∈ l, StmtOk (fun _ => True) (fun _ _ => True) val s) (hd : Denotes fs N l val) :
    CInv (setting (named fs) N) g ∧ ∀ k < l.length, Evals (setting (named fs) N) g (ids.getD k 0) (val k) := by
  obtain ⟨h1, h2⟩ := buildFrom_values h (by intro k s hk a ha; have := hs k s hk a ha; simpa using this) cinv_empty (by simp) hok
    (by intro k s hk; have := hd k s hk; simpa using this)
  rw [(buildCalls_run h hs).1] at h2
  exact ⟨h1, h2⟩

end Verif.Prog
