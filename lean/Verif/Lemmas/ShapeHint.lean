import Verif.Lemmas.BinaryGrad
import Verif.Lemmas.EvalPure
import Verif.Lemmas.GradLoop
import Verif.Lemmas.Reachable
import Verif.Spec.ShapeHint

/-! Shape tensors of constructed graphs. -/

namespace Verif.Hint
open Verif Verif.Spec Verif.Graph Verif.Nd Verif.Props Verif.Gradient Verif.Eval
variable {Op V E : Type}

/-- `s` is the tensor returned by `shape(x)`. -/
def ShapeTensor (H : HintOps Op) (g : Graph Op) (x s : Nat) : Prop :=
  ∃ n, g.nodes[x]? = some n ∧ (n.shape = some s ∨ n.shape = none ∧ IsApp g s H.shapeOp [x])

/-- The ways in which a node gets its shape tensor. -/
inductive HintCase (H : HintOps Op) (C : List (Ctor Op)) (g : Graph Op) (n : Node Op) (s : Nat) : Prop where
  | like {op ins x} : Ctor.like op ins x ∈ C → n.op = op → n.incoming = ins → n.placeholderName = none → n.variableId = none →
      ShapeTensor H g x s → HintCase H C g n s
  | binary {op a b sa sb} : Ctor.binary op a b ∈ C → n.op = op → n.incoming = [{ id := a }, { id := b }] → n.placeholderName = none →
      n.variableId = none → ShapeTensor H g a sa → ShapeTensor H g b sb → IsApp g s H.inferOp [sa, sb] → HintCase H C g n s
  | sized {op ins} : Ctor.sized op ins s ∈ C → n.op = op → n.incoming = ins → n.placeholderName = none → n.variableId = none → HintCase H C g n s
  | const {sh op} : Ctor.const sh op ∈ C → n.op = op → n.incoming = [] → n.placeholderName = none → n.variableId = none →
      IsApp g s (H.constOp sh) [] → HintCase H C g n s
  | scalar {op} : Ctor.scalar op ∈ C → n.op = op → n.incoming = [] → n.placeholderName = none → n.variableId = none →
      IsApp g s (H.constOp []) [] → HintCase H C g n s
  | vec {sh} : (sh = [] ∨ ∃ name, Ctor.placeholder name sh ∈ C ∧ sh.head? ≠ some (-1) ∧ ∀ d ∈ sh, d = -1 ∨ 0 < d) → n.op = H.constOp sh → n.incoming = [] →
      n.placeholderName = none → n.variableId = none → IsApp g s (H.constOp [(sh.length : Int)]) [] → HintCase H C g n s
  | placeholder {name sh} : Ctor.placeholder name sh ∈ C → n.placeholderName = some name → n.variableId = none → n.knownShape = some sh →
      sh.head? ≠ some (-1) → (∀ d ∈ sh, d = -1 ∨ 0 < d) → IsApp g s (H.constOp sh) [] → HintCase H C g n s

theorem isApp_grows {g g' : Graph Op} (h : Grows g g') {t : Nat} {op : Op} {xs : List Nat} (ha : IsApp g t op xs) : IsApp g' t op xs := by
  obtain ⟨n, h1, h2⟩ := ha
  exact ⟨n, h.1 _ _ h1, h2⟩

theorem ShapeTensor.grows {H : HintOps Op} {g g' : Graph Op} (h : Grows g g') {x s : Nat} (ha : ShapeTensor H g x s) : ShapeTensor H g' x s := by
  obtain ⟨n, h1, h2⟩ := ha
  exact ⟨n, h.1 _ _ h1, h2.imp id (fun h3 => ⟨h3.1, isApp_grows h h3.2⟩)⟩

theorem HintCase.grows {H : HintOps Op} {C : List (Ctor Op)} {g g' : Graph Op} (h : Grows g g') {n : Node Op} {s : Nat} (hc : HintCase H C g n s) :
    HintCase H C g' n s := by
  cases hc with
  | like a b c d e f => exact .like a b c d e (f.grows h)
  | binary a b c d e f f' f'' => exact .binary a b c d e (f.grows h) (f'.grows h) (isApp_grows h f'')
  | sized a b c d e => exact .sized a b c d e
  | const a b c d e f => exact .const a b c d e (isApp_grows h f)
  | scalar a b c d e f => exact .scalar a b c d e (isApp_grows h f)
  | vec a b c d e f => exact .vec a b c d e (isApp_grows h f)
  | placeholder a b c d e e' f => exact .placeholder a b c d e e' (isApp_grows h f)

/-- Inputs are older, and recorded shapes are explained. -/
structure HInv (H : HintOps Op) (C : List (Ctor Op)) (g : Graph Op) : Prop where
  older : ∀ (k : Nat) (n : Node Op), g.nodes[k]? = some n → ∀ i ∈ n.incoming, i.id < k
  hint : ∀ (k : Nat) (n : Node Op) (s : Nat), g.nodes[k]? = some n → n.shape = some s → HintCase H C g n s
  reach : Reachable H.toOps g

theorem HInv.step {H : HintOps Op} {C : List (Ctor Op)} {g g' : Graph Op} {b : Builder} {op : Op} {t : Nat} (hi : HInv H C g)
    (hb : g.build b op = .ok (g', t)) (hr : Reachable H.toOps g') (hc : ∀ s r, b.shape = some s → HintCase H C g (b.toNode op r) s) : HInv H C g' := by
  have hg := build_grows hb
  have hlt := build_inputs_lt hb
  obtain ⟨r, _, _, _, _, e⟩ := build_ok hb
  refine ⟨?_, ?_, hr⟩
  · intro k n hn i hi'
    rw [e] at hn
    rcases Nat.lt_trichotomy k g.nodes.length with h1 | h1 | h1
    · rw [List.getElem?_append_left h1] at hn
      exact hi.older k n hn i hi'
    · rw [h1, List.getElem?_append_right (Nat.le_refl _)] at hn
      simp at hn
      subst hn
      rw [h1]
      exact hlt i hi'
    · rw [List.getElem?_eq_none (by simp; omega)] at hn; cases hn
  · intro k n s hn hs
    rw [e] at hn
    rcases Nat.lt_trichotomy k g.nodes.length with h1 | h1 | h1
    · rw [List.getElem?_append_left h1] at hn
      exact (hi.hint k n s hn hs).grows hg
    · rw [h1, List.getElem?_append_right (Nat.le_refl _)] at hn
      simp at hn
      subst hn
      exact (hc s r hs).grows hg
    · rw [List.getElem?_eq_none (by simp; omega)] at hn; cases hn

theorem reach_build {O : Ops Op} {g g' : Graph Op} {b : Builder} {op : Op} {t : Nat} (hr : Reachable O g) (hb : g.build b op = .ok (g', t))
    (h1 : b.variableId = none) (h2 : b.placeholderName = none) : Reachable O g' := by
  refine .cmd (c := .build b op) (t := t) hr ?_
  show g.build { b with variableId := none, placeholderName := none } op = _
  have : ({ b with variableId := none, placeholderName := none } : Builder) = b := by cases b; simp_all
  rw [this]; exact hb

theorem HInv.build {H : HintOps Op} {C : List (Ctor Op)} {g g' : Graph Op} {b : Builder} {op : Op} {t : Nat} (hi : HInv H C g)
    (hb : g.build b op = .ok (g', t)) (h1 : b.variableId = none) (h2 : b.placeholderName = none)
    (hc : ∀ s r, b.shape = some s → HintCase H C g (b.toNode op r) s) : HInv H C g' :=
  hi.step hb (reach_build hi.reach hb h1 h2) hc

theorem shape_ok {H : HintOps Op} {C : List (Ctor Op)} {g g' : Graph Op} {x s : Nat} (hi : HInv H C g) (h : shape H g x = .ok (g', s)) :
    Grows g g' ∧ HInv H C g' ∧ ShapeTensor H g' x s := by
  simp only [shape, bind_ok] at h
  obtain ⟨n, hn, h⟩ := h
  have hn' := access_some.1 hn
  cases hs : n.shape with
  | some s' =>
    simp only [hs, Except.ok.injEq, Prod.mk.injEq] at h
    obtain ⟨rfl, rfl⟩ := h
    exact ⟨grows_refl _, hi, n, hn', .inl hs⟩
  | none =>
    simp only [hs] at h
    obtain ⟨r, hr⟩ := build_node h
    refine ⟨build_grows h, hi.build h rfl rfl (by simp), n, (build_grows h).1 _ _ hn', .inr ⟨hs, _, hr, rfl, rfl, rfl, rfl⟩⟩

theorem build_isApp {g g' : Graph Op} {b : Builder} {op : Op} {t : Nat} (h : g.build b op = .ok (g', t)) {xs : List Nat}
    (h1 : b.inNodes = xs.map (fun x => ({ id := x } : Incoming))) (h2 : b.placeholderName = none) (h3 : b.variableId = none) : IsApp g' t op xs := by
  obtain ⟨r, hr⟩ := build_node h
  exact ⟨_, hr, rfl, h1, h2, h3⟩

theorem construct_ok {H : HintOps Op} {C : List (Ctor Op)} {g g' : Graph Op} {c : Ctor Op} {t : Nat} (hi : HInv H C g) (hcC : c ∈ C)
    (h : construct H g c = .ok (g', t)) : Grows g g' ∧ HInv H C g' ∧ ∀ x, c = .shapeOf x → ShapeTensor H g' x t := by
  cases c with
  | plain op ins => exact ⟨build_grows h, hi.build h rfl rfl (by simp), by simp⟩
  | like op ins x =>
    simp only [construct, bind_ok] at h
    obtain ⟨⟨g1, s⟩, h1, h2⟩ := h
    obtain ⟨a1, a2, a3⟩ := shape_ok hi h1
    refine ⟨a1.trans (build_grows h2), a2.build h2 rfl rfl ?_, by simp⟩
    intro s' r hs
    cases hs
    exact .like hcC rfl rfl rfl rfl a3
  | binary op a b =>
    simp only [construct, bind_ok] at h
    obtain ⟨⟨g1, sa⟩, h1, ⟨g2, sb⟩, h2, ⟨g3, s⟩, h3, h4⟩ := h
    obtain ⟨a1, a2, a3⟩ := shape_ok hi h1
    obtain ⟨b1, b2, b3⟩ := shape_ok a2 h2
    have c2 := b2.build h3 rfl rfl (by simp)
    refine ⟨((a1.trans b1).trans (build_grows h3)).trans (build_grows h4), c2.build h4 rfl rfl ?_, by simp⟩
    intro s' r hs
    cases hs
    exact .binary hcC rfl rfl rfl rfl (a3.grows (b1.trans (build_grows h3))) (b3.grows (build_grows h3)) (build_isApp h3 rfl rfl rfl)
  | sized op ins t =>
    refine ⟨build_grows h, hi.build h rfl rfl ?_, by simp⟩
    intro s' r hs
    cases hs
    exact .sized hcC rfl rfl rfl rfl
  | const s op =>
    simp only [construct, bind_ok] at h
    obtain ⟨⟨g1, s⟩, h1, h2⟩ := h
    have a2 := hi.build h1 rfl rfl (by simp)
    refine ⟨(build_grows h1).trans (build_grows h2), a2.build h2 rfl rfl ?_, by simp⟩
    intro s' r hs
    cases hs
    exact .const hcC rfl rfl rfl rfl (build_isApp h1 rfl rfl rfl)
  | scalar op =>
    simp only [construct, bind_ok] at h
    obtain ⟨⟨g1, s⟩, h1, ⟨g2, s2⟩, h2, h3⟩ := h
    have a2 := hi.build h1 rfl rfl (by simp)
    have b2 := a2.build h2 rfl rfl (by
      intro s' r hs
      cases hs
      exact .vec (.inl rfl) rfl rfl rfl rfl (build_isApp h1 rfl rfl rfl))
    refine ⟨((build_grows h1).trans (build_grows h2)).trans (build_grows h3), b2.build h3 rfl rfl ?_, by simp⟩
    intro s' r hs
    cases hs
    exact .scalar hcC rfl rfl rfl rfl (build_isApp h2 rfl rfl rfl)
  | var vid =>
    have hr : Reachable H.toOps g' := .cmd (c := .var vid) (t := t) hi.reach h
    simp only [construct, variableById] at h
    split at h
    · cases h; exact ⟨grows_refl _, hi, by simp⟩
    · simp only [bind_ok] at h
      obtain ⟨⟨g1, t1⟩, h1, h2⟩ := h
      have h3 := Prod.mk.inj (Except.ok.inj h2)
      have hn : g'.nodes = g1.nodes := by rw [← h3.1]
      have h4 : HInv H C g1 ∨ True := .inr trivial
      have hg1 := build_grows h1
      refine ⟨⟨fun i n hin => by rw [hn]; exact hg1.1 i n hin, fun hc id n hin i hii => by rw [hn] at hin ⊢; exact hg1.2 hc id n hin i hii⟩, ?_, by simp⟩
      obtain ⟨r, hr1, _, _, _, e⟩ := build_ok h1
      have hgr : Grows g g' := ⟨fun i n hin => by rw [hn]; exact hg1.1 i n hin, fun hc id n hin i hii => by rw [hn] at hin ⊢; exact hg1.2 hc id n hin i hii⟩
      refine ⟨?_, ?_, hr⟩
      · intro k n hk i hi'
        rw [hn, e] at hk
        rcases Nat.lt_trichotomy k g.nodes.length with h1 | h1 | h1
        · rw [List.getElem?_append_left h1] at hk
          exact hi.older k n hk i hi'
        · rw [h1, List.getElem?_append_right (Nat.le_refl _)] at hk
          simp at hk
          subst hk
          simp [Builder.toNode] at hi'
        · rw [List.getElem?_eq_none (by simp; omega)] at hk; cases hk
      · intro k n s hk hs
        rw [hn, e] at hk
        rcases Nat.lt_trichotomy k g.nodes.length with h1 | h1 | h1
        · rw [List.getElem?_append_left h1] at hk
          exact (hi.hint k n s hk hs).grows hgr
        · rw [h1, List.getElem?_append_right (Nat.le_refl _)] at hk
          simp at hk
          subst hk
          simp [Builder.toNode] at hs
        · rw [List.getElem?_eq_none (by simp; omega)] at hk; cases hk
  | placeholder name s =>
    have hr : Reachable H.toOps g' := .cmd (c := .placeholder name s) (t := t) hi.reach h
    simp only [construct, Graph.placeholder, bind_ok] at h
    obtain ⟨⟨g1, hint⟩, h1, ks, h2, h3⟩ := h
    obtain ⟨rfl, hpos⟩ := knownShapeNew_ok.1 h2
    unfold placeholderHint at h1
    split at h1
    · rename_i hcond
      simp only [bind_ok] at h1
      obtain ⟨⟨ga, sh⟩, k1, ⟨gb, c⟩, k2, k3⟩ := h1
      have k4 := Prod.mk.inj (Except.ok.inj k3)
      obtain ⟨rfl, rfl⟩ := k4
      have hhead : ks.head? ≠ some (-1) := by
        intro hh
        cases ks with
        | nil => simp at hh
        | cons d ds => simp at hcond hh; exact hcond hh
      have a2 := hi.build k1 rfl rfl (by simp)
      have b2 := a2.build k2 rfl rfl (by
        intro s' r hs
        cases hs
        exact .vec (.inr ⟨name, hcC, hhead, hpos⟩) rfl rfl rfl rfl (build_isApp k1 rfl rfl rfl))
      refine ⟨((build_grows k1).trans (build_grows k2)).trans (build_grows h3), b2.step h3 hr ?_, by simp⟩
      intro s' r hs
      cases hs
      exact .placeholder hcC rfl rfl rfl hhead hpos (build_isApp k2 rfl rfl rfl)
    · cases h1
      exact ⟨build_grows h3, hi.step h3 hr (by simp), by simp⟩
  | shapeOf x =>
    obtain ⟨a1, a2, a3⟩ := shape_ok hi h
    exact ⟨a1, a2, by rintro _ ⟨⟩; exact a3⟩
  | fixed op ins => exact ⟨build_grows h, hi.build h rfl rfl (by simp), by simp⟩

theorem constructAll_ok {H : HintOps Op} {C : List (Ctor Op)} : ∀ {cs : List (Ctor Op)} {g g' : Graph Op} {ts : List Nat}, HInv H C g → (∀ c ∈ cs, c ∈ C) →
    constructAll H g cs = .ok (g', ts) → Grows g g' ∧ HInv H C g' ∧ ∀ (j : Nat) x s, cs[j]? = some (.shapeOf x) → ts[j]? = some s → ShapeTensor H g' x s := by
  intro cs
  induction cs with
  | nil => intro g g' ts hi _ h; cases h; exact ⟨grows_refl _, hi, by simp⟩
  | cons c cs ih =>
    intro g g' ts hi hC h
    simp only [constructAll, bind_ok] at h
    obtain ⟨⟨g1, t⟩, h1, ⟨g2, ts2⟩, h2, h3⟩ := h
    have h4 := Prod.mk.inj (Except.ok.inj h3)
    obtain ⟨rfl, rfl⟩ := h4
    obtain ⟨a1, a2, a3⟩ := construct_ok hi (hC c (by simp)) h1
    obtain ⟨b1, b2, b3⟩ := ih a2 (fun c hc => hC c (List.mem_cons_of_mem _ hc)) h2
    refine ⟨a1.trans b1, b2, ?_⟩
    intro j x s hj hs
    cases j with
    | zero => simp at hj hs; subst hs; exact (a3 x hj).grows b1
    | succ j => simp at hj hs; exact b3 j x s hj hs

theorem hinv_empty {H : HintOps Op} {C : List (Ctor Op)} : HInv H C empty := ⟨by simp [empty], by simp [empty], .init⟩

/-! ## Meanings -/

variable {f : Op → List (OpInput V) → Option (Except E (List V))} {shapeOf : V → List Nat}

/-- A tensor with a value gives that value to ops that use it. -/
theorem input_of_target {g : Graph Op} (hw : WF g) {feeds : List (Feed V)} {env : List V} {x : Nat} {v : V}
    (h : TargetMeans f shapeOf g feeds env x (.ok v)) :
    ∃ kind, ∀ cv : Nat → Except E (List V), (IsOp g x → Means f shapeOf g feeds env x (cv x)) →
      InputIs shapeOf g feeds env cv ({ id := x } : Incoming) (.ok ⟨kind, v⟩) := by
  cases h with
  | placeholder hn hv hf => exact ⟨_, fun cv _ => .placeholder hn hf⟩
  | variable_ hn hv ha =>
    refine ⟨_, fun cv _ => .variable_ hn ?_ hv ha⟩
    rcases hw.notBoth _ _ hn with h | h
    · exact h
    · rw [h] at hv; cases hv
  | result hm hy =>
    refine ⟨_, fun cv hcv => .result (means_isOp hm) ?_ hy⟩
    exact means_unique (hcv (means_isOp hm)) hm

theorem target_of_input {g : Graph Op} (hw : WF g) {feeds : List (Feed V)} {env : List V} {cv : Nat → Except E (List V)} {i : Incoming} {x : OpInput V}
    (hs : i.selector = 0) (hcv : IsOp g i.id → Means f shapeOf g feeds env i.id (cv i.id)) (h : InputIs shapeOf g feeds env cv i (.ok x)) :
    TargetMeans f shapeOf g feeds env i.id (.ok x.val) := by
  cases h with
  | placeholder hn hf =>
    refine .placeholder hn ?_ hf
    rcases hw.notBoth _ _ hn with h | h
    · obtain ⟨name, _, h1, _⟩ := hf
      rw [h] at h1; cases h1
    · exact h
  | variable_ hn hp hv ha => exact .variable_ hn hv ha
  | result ho hc hy =>
    have := hcv ho
    rw [hc] at this
    rw [hs] at hy
    exact .result this hy

theorem inputsAre_get {g : Graph Op} {feeds : List (Feed V)} {env : List V} {cv : Nat → Except E (List V)} : ∀ {is : List Incoming} {xs : List (OpInput V)},
    InputsAre shapeOf g feeds env cv is (.ok xs) → ∀ (k : Nat) i, is[k]? = some i → ∃ x, xs[k]? = some x ∧ InputIs shapeOf g feeds env cv i (.ok x) := by
  intro is
  induction is with
  | nil => intro xs _ k i h; simp at h
  | cons j is ih =>
    intro xs h k i hk
    cases h with
    | cons h1 h2 =>
      cases k with
      | zero => simp at hk; subst hk; exact ⟨_, by simp, h1⟩
      | succ k => simp at hk; obtain ⟨x, h3, h4⟩ := ih h2 k i hk; exact ⟨x, by simpa using h3, h4⟩

theorem inputsAre_length {g : Graph Op} {feeds : List (Feed V)} {env : List V} {cv : Nat → Except E (List V)} : ∀ {is : List Incoming} {xs : List (OpInput V)},
    InputsAre shapeOf g feeds env cv is (.ok xs) → xs.length = is.length := by
  intro is
  induction is with
  | nil => intro xs h; cases h; rfl
  | cons j is ih =>
    intro xs h
    cases h with
    | cons h1 h2 => simp [ih h2]

/-- An application of an op to tensors with values has the value of the op. -/
theorem isApp_means {g : Graph Op} (hw : WF g) {feeds : List (Feed V)} {env : List V} {t : Nat} {op : Op} {xs : List Nat} {vs : List V}
    (ha : IsApp g t op xs) (hx : List.Forall₂ (fun x v => TargetMeans f shapeOf g feeds env x (.ok v)) xs vs) {y : V} {ys : List V}
    (hf : ∀ ins : List (OpInput V), ins.map (·.val) = vs → f op ins = some (.ok (y :: ys))) : TargetMeans f shapeOf g feeds env t (.ok y) := by
  classical
  obtain ⟨n, hn, rfl, hin, hp, hv⟩ := ha
  have hcv : ∃ cv : Nat → Except E (List V), ∀ x ∈ xs, IsOp g x → Means f shapeOf g feeds env x (cv x) := by
    refine ⟨fun x => if h : ∃ r, Means f shapeOf g feeds env x r then h.choose else .ok [], ?_⟩
    intro x hxs ho
    obtain ⟨k, hk⟩ := List.getElem?_of_mem hxs
    obtain ⟨v, hv⟩ : ∃ v, TargetMeans f shapeOf g feeds env x (.ok v) := by
      clear hf hin hk
      induction hx with
      | nil => cases hxs
      | cons h1 _ ih =>
        rcases List.mem_cons.1 hxs with rfl | h
        · exact ⟨_, h1⟩
        · exact ih h
    have : ∃ r, Means f shapeOf g feeds env x r := by
      cases hv with
      | placeholder hn' hv' hf' =>
        obtain ⟨m, h1, h2, _⟩ := ho
        obtain ⟨name, _, h3, _⟩ := hf'
        rw [hn'] at h1; cases h1
        rw [h2] at h3; cases h3
      | variable_ hn' hv' _ =>
        obtain ⟨m, h1, _, h2⟩ := ho
        rw [hn'] at h1; cases h1
        rw [h2] at hv'; cases hv'
      | result hm _ => exact ⟨_, hm⟩
    dsimp only
    rw [dif_pos this]
    exact this.choose_spec
  obtain ⟨cv, hcv⟩ := hcv
  have hins : ∃ ins : List (OpInput V), InputsAre shapeOf g feeds env cv (xs.map (fun x => ({ id := x } : Incoming))) (.ok ins) ∧ ins.map (·.val) = vs := by
    clear hf hin
    induction hx with
    | nil => exact ⟨[], .nil, rfl⟩
    | @cons x v xs vs h1 _ ih =>
      obtain ⟨ins, h2, h3⟩ := ih (fun x hx => hcv x (List.mem_cons_of_mem _ hx))
      obtain ⟨kind, h4⟩ := input_of_target hw h1
      exact ⟨⟨kind, v⟩ :: ins, .cons (h4 cv (hcv x (by simp))) h2, by simp [h3]⟩
  obtain ⟨ins, h1, h2⟩ := hins
  refine .result (.run hn ⟨n, hn, hp, hv⟩ (cv := cv) ?_ (by rw [hin]; exact h1) (hf ins h2)) rfl
  rintro b ⟨⟨m, hm, i, hi, rfl⟩, ho⟩
  rw [hn] at hm; cases hm
  rw [hin] at hi
  obtain ⟨x, hx, rfl⟩ := List.mem_map.1 hi
  exact hcv x hx ho

theorem commonShape_pos {a b t : List Nat} (h : CommonShape a b t) (ha : ∀ n ∈ a, 0 < n) (hb : ∀ n ∈ b, 0 < n) : ∀ n ∈ t, 0 < n := by
  intro n hn
  obtain ⟨k, hk, rfl⟩ := List.getElem_of_mem hn
  rcases h.2.2.2 k hk with ⟨j, hj, _, e⟩ | ⟨j, hj, _, e⟩
  · rw [e]; exact ha _ (List.getElem_mem _)
  · rw [e]; exact hb _ (List.getElem_mem _)

theorem natCast_of {s : List Int} (h : ∀ d ∈ s, 0 ≤ d) : ∃ s' : List Nat, s = s'.map (fun n : Nat => (n : Int)) :=
  ⟨s.map Int.toNat, by
    rw [List.map_map]
    conv_lhs => rw [← List.map_id s]
    apply List.map_congr_left
    intro d hd
    simp [Int.toNat_of_nonneg (h d hd)]⟩

theorem known_pos {s : List Int} (h : s.head? = some (-1) ∨ ∀ d ∈ s, d ≠ -1) (h1 : s.head? ≠ some (-1)) (h2 : ∀ d ∈ s, d = -1 ∨ 0 < d) :
    ∀ d ∈ s, 0 ≤ d := by
  intro d hd
  rcases h with h | h
  · exact absurd h h1
  · rcases h2 d hd with h3 | h3
    · exact absurd h3 (h d hd)
    · omega

/-- Recorded and computed shapes are the shapes of the values. -/
theorem hint_sound {H : HintOps Op} {C : List (Ctor Op)} {g : Graph Op} {enc : List Nat → V} {feeds : List (Feed V)} {env : List V}
    (hi : HInv H C g) (hS : ShapeOps H f shapeOf enc) (hC : ∀ c ∈ C, CtorOk f shapeOf enc g feeds env c) :
    ∀ (x : Nat) (v : V), TargetMeans f shapeOf g feeds env x (.ok v) → ∀ s, ShapeTensor H g x s →
      TargetMeans f shapeOf g feeds env s (.ok (enc (shapeOf v))) := by
  have hw := hi.reach.wf
  have hconst : ∀ (sh : List Nat) (s : Nat), IsApp g s (H.constOp (sh.map (fun n : Nat => (n : Int)))) [] → TargetMeans f shapeOf g feeds env s (.ok (enc sh)) := by
    intro sh s ha
    refine isApp_means hw ha (vs := []) .nil (ys := []) ?_
    intro ins hins
    rw [List.map_eq_nil_iff.1 hins]
    exact hS.const sh
  intro x
  induction x using Nat.strong_induction_on with
  | _ x ih =>
    intro v hv s hs
    obtain ⟨n, hn, h | ⟨_, h⟩⟩ := hs
    swap
    · refine isApp_means hw h (.cons hv .nil) (ys := []) ?_
      intro ins hins
      match ins, hins with
      | [a], hins =>
        cases hins
        exact hS.shape a
    have hrun : n.placeholderName = none → n.variableId = none → ∃ cv xs ys, (∀ b, Uses g x b → Means f shapeOf g feeds env b (cv b)) ∧
        InputsAre shapeOf g feeds env cv n.incoming (.ok xs) ∧ f n.op xs = some (.ok (v :: ys)) := by
      intro h1 h2
      cases hv with
      | placeholder hn' hv' hf' =>
        rw [hn] at hn'; cases hn'
        obtain ⟨name, _, h3, _⟩ := hf'
        rw [h1] at h3; cases h3
      | variable_ hn' hv' _ => rw [hn] at hn'; cases hn'; rw [h2] at hv'; cases hv'
      | @result ys y hm hy =>
        cases hm with
        | @run _ n' _ cv xs hn' ho hu hin hf =>
          rw [hn] at hn'; cases hn'
          cases ys with
          | nil => simp at hy
          | cons y' ys => simp at hy; subst hy; exact ⟨cv, xs, ys, hu, hin, hf⟩
    have huse : ∀ i ∈ n.incoming, IsOp g i.id → Uses g x i.id := fun i hi' ho => ⟨⟨n, hn, i, hi', rfl⟩, ho⟩
    cases hi.hint x n s hn h with
    | @like op ins y hmem hop hinc h1 h2 hst =>
      obtain ⟨cv, xs, ys, hu, hin, hf⟩ := hrun h1 h2
      obtain ⟨k, i, e1, e2, e3, e4⟩ := hC _ hmem
      rw [← hinc] at e1
      obtain ⟨xi, g1, g2⟩ := inputsAre_get hin k i e1
      have hmi := List.mem_of_getElem? e1
      have ht := target_of_input hw e3 (fun ho => hu _ (huse i hmi ho)) g2
      subst e2
      rw [e4 xs xi v ys g1 (by rw [← hinc]; exact inputsAre_length hin) (fun j i' x' hj hx' hsel => by
        rw [← hinc] at hj
        obtain ⟨x2, k1, k2⟩ := inputsAre_get hin j i' hj
        rw [hx'] at k1; cases k1
        exact target_of_input hw hsel (fun ho => hu _ (huse i' (List.mem_of_getElem? hj) ho)) k2) (by rw [← hop]; exact hf)]
      exact ih i.id (hi.older x n hn i hmi) _ ht s hst
    | @binary op a b sa sb hmem hop hinc h1 h2 hsa hsb happ =>
      obtain ⟨cv, xs, ys, hu, hin, hf⟩ := hrun h1 h2
      obtain ⟨e1, e2⟩ := hC _ hmem
      obtain ⟨xa, ga, ga'⟩ := inputsAre_get hin 0 { id := a } (by rw [hinc]; rfl)
      obtain ⟨xb, gb, gb'⟩ := inputsAre_get hin 1 { id := b } (by rw [hinc]; rfl)
      have hma : ({ id := a } : Incoming) ∈ n.incoming := by rw [hinc]; simp
      have hmb : ({ id := b } : Incoming) ∈ n.incoming := by rw [hinc]; simp
      have hta := target_of_input hw rfl (fun ho => hu _ (huse _ hma ho)) ga'
      have htb := target_of_input hw rfl (fun ho => hu _ (huse _ hmb ho)) gb'
      have hxs : xs = [xa, xb] := by
        rw [hinc] at hin
        cases hin with
        | cons _ h => cases h with
          | cons _ h => cases h; simp at ga gb; subst ga; subst gb; rfl
      rw [hxs, hop] at hf
      have hcs := e1 xa xb v ys hf
      have hinf := e2 _ _ hta htb
      have hs' := inferBinOpShape_spec hcs hinf.1 (commonShape_pos hcs hinf.2.1 hinf.2.2)
      have hsa' := ih a (hi.older x n hn _ hma) _ hta sa hsa
      have hsb' := ih b (hi.older x n hn _ hmb) _ htb sb hsb
      refine isApp_means hw happ (.cons hsa' (.cons hsb' .nil)) (ys := []) ?_
      intro ins hins
      match ins, hins with
      | [u, w], hins =>
        have h1 := (List.cons.inj hins).1
        have h2 := (List.cons.inj (List.cons.inj hins).2).1
        exact hS.infer u w _ _ _ h1 h2 hs'
      | [], hins => cases hins
      | [_], hins => simp at hins
      | _ :: _ :: _ :: _, hins => simp at hins
    | @sized op ins hmem hop hinc h1 h2 =>
      obtain ⟨cv, xs, ys, hu, hin, hf⟩ := hrun h1 h2
      obtain ⟨⟨k, i, e1, e2, e3, e4⟩, e5⟩ := hC _ hmem
      rw [← hinc] at e1
      obtain ⟨xi, g1, g2⟩ := inputsAre_get hin k i e1
      have hmi := List.mem_of_getElem? e1
      have ht := target_of_input hw e3 (fun ho => hu _ (huse i hmi ho)) g2
      subst e2
      obtain ⟨sh, e6⟩ := e5 _ ht
      rw [e4 xs xi sh v ys g1 e6 (by rw [← hop]; exact hf), ← e6]
      exact ht
    | @const sh op hmem hop hinc h1 h2 happ =>
      obtain ⟨cv, xs, ys, hu, hin, hf⟩ := hrun h1 h2
      obtain ⟨s', rfl, e2⟩ := hC _ hmem
      rw [hinc] at hin
      cases hin
      rw [e2 v ys (by rw [← hop]; exact hf)]
      exact hconst _ _ happ
    | @scalar op hmem hop hinc h1 h2 happ =>
      obtain ⟨cv, xs, ys, hu, hin, hf⟩ := hrun h1 h2
      have e2 := hC _ hmem
      rw [hinc] at hin
      cases hin
      rw [e2 v ys (by rw [← hop]; exact hf)]
      exact hconst [] _ happ
    | @vec sh hsh hop hinc h1 h2 happ =>
      obtain ⟨cv, xs, ys, hu, hin, hf⟩ := hrun h1 h2
      rw [hinc] at hin
      cases hin
      have : ∃ s' : List Nat, sh = s'.map (fun n : Nat => (n : Int)) := by
        rcases hsh with rfl | ⟨name, hmem, hhead, hpos⟩
        · exact ⟨[], rfl⟩
        · exact natCast_of (known_pos (hC _ hmem) hhead hpos)
      obtain ⟨s', rfl⟩ := this
      rw [hop, hS.const] at hf
      cases hf
      rw [hS.enc]
      exact hconst [s'.length] _ (by simpa using happ)
    | @placeholder name sh hmem hp hv' hk hhead hpos happ =>
      have hkn := hC _ hmem
      obtain ⟨s', rfl⟩ := natCast_of (known_pos hkn hhead hpos)
      have : shapeOf v = s' := by
        cases hv with
        | placeholder hn' hvv hf' =>
          rw [hn] at hn'; cases hn'
          obtain ⟨_, declared, _, h2, _, h4, h5⟩ := hf'
          rw [hk] at h2; cases h2
          apply List.ext_getElem?
          intro k
          rw [List.length_map] at h4
          by_cases hlt : k < s'.length
          · have hlt' : k < (shapeOf v).length := by omega
            rw [List.getElem?_eq_getElem hlt, List.getElem?_eq_getElem hlt']
            have := h5 k (s'[k] : Int) (shapeOf v)[k] (by rw [List.getElem?_map, List.getElem?_eq_getElem hlt]; rfl) (List.getElem?_eq_getElem hlt')
            rcases this with h6 | h6
            · exact absurd h6 (by omega)
            · congr 1; omega
          · rw [List.getElem?_eq_none (by omega), List.getElem?_eq_none (by omega)]
        | variable_ hn' hvv _ => rw [hn] at hn'; cases hn'; rw [hv'] at hvv; cases hvv
        | result hm _ =>
          obtain ⟨m, h1, h2, _⟩ := means_isOp hm
          rw [hn] at h1; cases h1
          rw [hp] at h2; cases h2
      rw [this]
      exact hconst _ _ happ

/-! ## Shapes of arithmetic results -/

section
variable {R : Type}

theorem zipOp_common {f : R → R → R} {x0 x1 y : Arr R} (h : zipOp f x0 x1 = .ok y) : CommonShape x0.shape x1.shape y.shape := by
  unfold zipOp at h
  split at h
  · rename_i s hs; cases h; exact commonShape_iff.2 hs
  · cases h

theorem scalarElem_shape {x : Arr R} {e : R} (h : scalarElem x = .ok e) : x.shape = [] := by
  unfold scalarElem at h
  split at h
  · assumption
  · cases h

theorem map_right_common {x0 x1 y : Arr R} {F : R → R → R} (h : (do let e ← scalarElem x0; Except.ok (Nd.map (F e) x1)) = .ok y) :
    CommonShape x0.shape x1.shape y.shape := by
  simp only [bind_ok] at h
  obtain ⟨e, h1, h2⟩ := h
  cases h2
  rw [scalarElem_shape h1]
  exact commonShape_comm (commonShape_left (broadcastsTo_nil _))

theorem map_left_common {x0 x1 y : Arr R} {F : R → R → R} (h : (do let e ← scalarElem x1; Except.ok (Nd.map (F e) x0)) = .ok y) :
    CommonShape x0.shape x1.shape y.shape := by
  simp only [bind_ok] at h
  obtain ⟨e, h1, h2⟩ := h
  cases h2
  rw [scalarElem_shape h1]
  exact commonShape_left (broadcastsTo_nil _)

theorem binForward_common {f : R → R → R} {x0 x1 y : Arr R} (h : binForward f x0 x1 = .ok y) : CommonShape x0.shape x1.shape y.shape := by
  unfold binForward at h
  dsimp only at h
  split at h
  · exact map_right_common (F := fun e a => f a e) h
  · split at h
    · exact map_left_common (F := fun e a => f a e) h
    · exact zipOp_common h

theorem arithmetic_common [Field R] {x0 x1 y : Arr R}
    (h : addOp x0 x1 = .ok y ∨ subOp x0 x1 = .ok y ∨ mulOp x0 x1 = .ok y ∨ divOp x0 x1 = .ok y) : CommonShape x0.shape x1.shape y.shape := by
  rcases h with h | h | h | h
  · exact binForward_common h
  · unfold subOp at h
    split at h
    · exact map_right_common (F := fun e a => e - a) h
    · exact zipOp_common h
  · exact binForward_common h
  · unfold divOp at h
    split at h
    · exact map_right_common (F := fun e a => e / a) h
    · split at h
      · exact map_left_common (F := fun e a => a * (1 / e)) h
      · exact zipOp_common h

end

end Verif.Hint
