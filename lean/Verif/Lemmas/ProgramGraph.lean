import Verif.Lemmas.ProgramGrad

/-! What the graph of a program looks like. -/

namespace Verif.Prog
open Verif Verif.Graph Verif.Nd Verif.Hint Verif.Gradient Verif.Spec Verif.Eval

section
variable {Op : Type}

/-- An ordinary op node. -/
def Ordinary (n : Node Op) : Prop := n.placeholderName = none ∧ n.variableId = none ∧ n.backpropInputs = none

/-- Op and inputs of the tensor returned by a constructor call. -/
def ctorNode : Ctor Op → Option (Op × List Incoming)
  | .plain op ins => some (op, ins)
  | .like op ins _ => some (op, ins)
  | .binary op a b => some (op, [{ id := a }, { id := b }])
  | .sized op ins _ => some (op, ins)
  | .const _ op => some (op, [])
  | .scalar op => some (op, [])
  | .fixed op ins => some (op, ins)
  | _ => none

/-- How a node came into the graph. -/
inductive Made (H : HintOps Op) (C : List (Ctor Op)) (g : Graph Op) (n : Node Op) : Prop where
  | var : n.op = H.varOp → n.incoming = [] → n.variableId ≠ none → n.backpropInputs = none → Made H C g n
  | placeholder : n.op = H.phOp → n.incoming = [] → n.placeholderName ≠ none → n.backpropInputs = none → Made H C g n
  | const {s} : n.op = H.constOp s → n.incoming = [] → Ordinary n → Made H C g n
  | shape {x} : n.op = H.shapeOp → n.incoming = [{ id := x }] → Ordinary n → n.differentiable = false → Made H C g n
  | infer {a b sa sb} : n.op = H.inferOp → n.incoming = [{ id := sa }, { id := sb }] → Ordinary n → ShapeTensor H g a sa → ShapeTensor H g b sb → Made H C g n
  | ctor {c op ins} : c ∈ C → ctorNode c = some (op, ins) → n.op = op → n.incoming = ins → Ordinary n →
      (n.differentiable = false ↔ c = .fixed op ins) → Made H C g n

theorem Made.grows {H : HintOps Op} {C : List (Ctor Op)} {g g' : Graph Op} (h : Grows g g') {n : Node Op} (hm : Made H C g n) : Made H C g' n := by
  cases hm with
  | var a b c d => exact .var a b c d
  | placeholder a b c d => exact .placeholder a b c d
  | const a b c => exact .const a b c
  | shape a b c d => exact .shape a b c d
  | infer a b c d e => exact .infer a b c (d.grows h) (e.grows h)
  | ctor a b c d e f => exact .ctor a b c d e f

/-- Every node is explained, and inputs have smaller rank. -/
structure PInv (H : HintOps Op) (C : List (Ctor Op)) (g : Graph Op) : Prop where
  made : ∀ (k : Nat) (n : Node Op), g.nodes[k]? = some n → Made H C g n
  ranked : ∀ (k : Nat) (n : Node Op), g.nodes[k]? = some n → ∀ i ∈ n.incoming, ∃ m, g.nodes[i.id]? = some m ∧ m.topoRank < n.topoRank
  fresh : ∀ (k : Nat) (n : Node Op), g.nodes[k]? = some n → n.placeholderName ≠ none ∨ n.variableId ≠ none → n.differentiable = true

theorem PInv.step {H : HintOps Op} {C : List (Ctor Op)} {g g' g'' : Graph Op} {b : Builder} {op : Op} {t : Nat} (hi : PInv H C g)
    (hb : g.build b op = .ok (g', t)) (hn : g''.nodes = g'.nodes) (hm : ∀ r, Made H C g (b.toNode op r))
    (hd : b.placeholderName ≠ none ∨ b.variableId ≠ none → b.differentiable = true) : Grows g g'' ∧ PInv H C g'' := by
  have hg1 := build_grows hb
  have hg : Grows g g'' := ⟨fun i n hin => by rw [hn]; exact hg1.1 i n hin, fun hc id n hin i hii => by rw [hn] at hin ⊢; exact hg1.2 hc id n hin i hii⟩
  obtain ⟨r, hr, _, _, _, e⟩ := build_ok hb
  rw [← hn] at e
  refine ⟨hg, ?_, ?_, ?_⟩
  · intro k n hk
    rw [e] at hk
    rcases Nat.lt_trichotomy k g.nodes.length with h1 | h1 | h1
    · rw [List.getElem?_append_left h1] at hk
      exact (hi.made k n hk).grows hg
    · rw [h1, List.getElem?_append_right (Nat.le_refl _)] at hk
      simp at hk
      subst hk
      exact (hm r).grows hg
    · rw [List.getElem?_eq_none (by simp; omega)] at hk; cases hk
  · intro k n hk i hii
    rw [e] at hk
    rcases Nat.lt_trichotomy k g.nodes.length with h1 | h1 | h1
    · rw [List.getElem?_append_left h1] at hk
      obtain ⟨m, a, b⟩ := hi.ranked k n hk i hii
      exact ⟨m, hg.1 _ _ a, b⟩
    · rw [h1, List.getElem?_append_right (Nat.le_refl _)] at hk
      simp at hk
      subst hk
      obtain ⟨m, a, b⟩ := buildRank_ok hr i hii
      exact ⟨m, hg.1 _ _ a, b⟩
    · rw [List.getElem?_eq_none (by simp; omega)] at hk; cases hk
  · intro k n hk hl
    rw [e] at hk
    rcases Nat.lt_trichotomy k g.nodes.length with h1 | h1 | h1
    · rw [List.getElem?_append_left h1] at hk
      exact hi.fresh k n hk hl
    · rw [h1, List.getElem?_append_right (Nat.le_refl _)] at hk
      simp at hk
      subst hk
      exact hd hl
    · rw [List.getElem?_eq_none (by simp; omega)] at hk; cases hk

theorem PInv.shape {H : HintOps Op} {C : List (Ctor Op)} {g g' : Graph Op} {x s : Nat} (hi : PInv H C g) (h : Hint.shape H g x = .ok (g', s)) :
    PInv H C g' ∧ ShapeTensor H g' x s := by
  simp only [Hint.shape, bind_ok] at h
  obtain ⟨n, hn, h⟩ := h
  have hn' := access_some.1 hn
  cases hs : n.shape with
  | some s' =>
    simp only [hs, Except.ok.injEq, Prod.mk.injEq] at h
    obtain ⟨rfl, rfl⟩ := h
    exact ⟨hi, n, hn', .inl hs⟩
  | none =>
    simp only [hs] at h
    obtain ⟨r, hr⟩ := build_node h
    exact ⟨(hi.step h rfl (fun r => .shape rfl rfl ⟨rfl, rfl, rfl⟩ rfl) (by simp)).2, n, (build_grows h).1 _ _ hn', .inr ⟨hs, _, hr, rfl, rfl, rfl, rfl⟩⟩

theorem shape_grows_any {H : HintOps Op} {g g' : Graph Op} {x s : Nat} (h : Hint.shape H g x = .ok (g', s)) : Grows g g' := by
  simp only [Hint.shape, bind_ok] at h
  obtain ⟨n, hn, h⟩ := h
  cases hs : n.shape with
  | some s' =>
    simp only [hs, Except.ok.injEq, Prod.mk.injEq] at h
    obtain ⟨rfl, rfl⟩ := h
    exact grows_refl _
  | none =>
    simp only [hs] at h
    exact build_grows h

theorem PInv.construct {H : HintOps Op} {C : List (Ctor Op)} {g g' : Graph Op} {c : Ctor Op} {t : Nat} (hi : PInv H C g) (hcC : c ∈ C)
    (h : construct H g c = .ok (g', t)) : PInv H C g' := by
  cases c with
  | plain op ins => exact (hi.step h rfl (fun r => .ctor hcC rfl rfl rfl ⟨rfl, rfl, rfl⟩ (by simp [Builder.toNode])) (by simp)).2
  | like op ins x =>
    simp only [Hint.construct, bind_ok] at h
    obtain ⟨⟨g1, s⟩, h1, h2⟩ := h
    exact ((hi.shape h1).1.step h2 rfl (fun r => .ctor hcC rfl rfl rfl ⟨rfl, rfl, rfl⟩ (by simp [Builder.toNode])) (by simp)).2
  | binary op a b =>
    simp only [Hint.construct, bind_ok] at h
    obtain ⟨⟨g1, sa⟩, h1, ⟨g2, sb⟩, h2, ⟨g3, s⟩, h3, h4⟩ := h
    obtain ⟨i1, t1⟩ := hi.shape h1
    obtain ⟨i2, t2⟩ := i1.shape h2
    have i3 := (i2.step h3 rfl (fun r => .infer rfl rfl ⟨rfl, rfl, rfl⟩ (t1.grows (shape_grows_any h2)) t2) (by simp)).2
    exact (i3.step h4 rfl (fun r => .ctor hcC rfl rfl rfl ⟨rfl, rfl, rfl⟩ (by simp [Builder.toNode])) (by simp)).2
  | sized op ins t => exact (hi.step h rfl (fun r => .ctor hcC rfl rfl rfl ⟨rfl, rfl, rfl⟩ (by simp [Builder.toNode])) (by simp)).2
  | const s op =>
    simp only [Hint.construct, bind_ok] at h
    obtain ⟨⟨g1, s⟩, h1, h2⟩ := h
    have i1 := (hi.step h1 rfl (fun r => .const rfl rfl ⟨rfl, rfl, rfl⟩) (by simp)).2
    exact (i1.step h2 rfl (fun r => .ctor hcC rfl rfl rfl ⟨rfl, rfl, rfl⟩ (by simp [Builder.toNode])) (by simp)).2
  | scalar op =>
    simp only [Hint.construct, bind_ok] at h
    obtain ⟨⟨g1, s⟩, h1, ⟨g2, s2⟩, h2, h3⟩ := h
    have i1 := (hi.step h1 rfl (fun r => .const rfl rfl ⟨rfl, rfl, rfl⟩) (by simp)).2
    have i2 := (i1.step h2 rfl (fun r => .const rfl rfl ⟨rfl, rfl, rfl⟩) (by simp)).2
    exact (i2.step h3 rfl (fun r => .ctor hcC rfl rfl rfl ⟨rfl, rfl, rfl⟩ (by simp [Builder.toNode])) (by simp)).2
  | var vid =>
    simp only [Hint.construct, variableById] at h
    split at h
    · cases h; exact hi
    · simp only [bind_ok] at h
      obtain ⟨⟨g1, t1⟩, h1, h2⟩ := h
      have h3 := Prod.mk.inj (Except.ok.inj h2)
      exact (hi.step h1 (by rw [← h3.1]) (fun r => .var rfl rfl (by simp [Builder.toNode]) rfl) (fun _ => rfl)).2
  | placeholder name s =>
    simp only [Hint.construct, Graph.placeholder, bind_ok] at h
    obtain ⟨⟨g1, hint⟩, h1, ks, h2, h3⟩ := h
    have i1 : PInv H C g1 := by
      unfold placeholderHint at h1
      split at h1
      · simp only [bind_ok] at h1
        obtain ⟨⟨ga, sh⟩, k1, ⟨gb, c⟩, k2, k3⟩ := h1
        obtain ⟨rfl, rfl⟩ := Prod.mk.inj (Except.ok.inj k3)
        have i1 := (hi.step k1 rfl (fun r => .const rfl rfl ⟨rfl, rfl, rfl⟩) (by simp)).2
        exact (i1.step k2 rfl (fun r => .const rfl rfl ⟨rfl, rfl, rfl⟩) (by simp)).2
      · cases h1; exact hi
    exact (i1.step h3 rfl (fun r => .placeholder rfl rfl (by simp [Builder.toNode]) rfl) (fun _ => rfl)).2
  | shapeOf x => exact (hi.shape h).1
  | fixed op ins => exact (hi.step h rfl (fun r => .ctor hcC rfl rfl rfl ⟨rfl, rfl, rfl⟩ (by simp [Builder.toNode])) (by simp)).2

theorem PInv.constructAll {H : HintOps Op} {C : List (Ctor Op)} : ∀ {cs : List (Ctor Op)} {g g' : Graph Op} {ts : List Nat}, PInv H C g → (∀ c ∈ cs, c ∈ C) →
    constructAll H g cs = .ok (g', ts) → PInv H C g' := by
  intro cs
  induction cs with
  | nil => intro g g' ts hi _ h; cases h; exact hi
  | cons c cs ih =>
    intro g g' ts hi hC h
    simp only [Hint.constructAll, bind_ok] at h
    obtain ⟨⟨g1, t⟩, h1, ⟨g2, ts2⟩, h2, h3⟩ := h
    obtain ⟨rfl, rfl⟩ := Prod.mk.inj (Except.ok.inj h3)
    exact ih (hi.construct (hC c (by simp)) h1) (fun c hc => hC c (List.mem_cons_of_mem _ hc)) h2

theorem pinv_empty {H : HintOps Op} {C : List (Ctor Op)} : PInv H C (empty : Graph Op) := ⟨by simp [empty], by simp [empty], by simp [empty]⟩

end

/-! ## Tensors that do not move -/

/-- Shape tensors do not move. -/
theorem shape_still {l : List Stmt} {g : Graph POp} {X : List Nat} (hi : HInv hintOps (l.map Stmt.ctor) g) : ∀ x s, ShapeTensor hintOps g x s → Still g X s := by
  have hns : ∀ op ins t, Ctor.sized op ins t ∉ l.map Stmt.ctor := by
    intro op ins t h
    obtain ⟨st, _, h⟩ := List.mem_map.1 h
    cases st <;> simp only [Stmt.ctor, reduceCtorEq] at h
    case un e x _ => cases e <;> simp [unCtor] at h
  intro x
  induction x using Nat.strong_induction_on with
  | _ x ih =>
    rintro s ⟨n, hn, h | ⟨_, h⟩⟩
    · have hh := hi.hint x n s hn h
      cases hh with
      | @like op ins y hmem hop hinc h1 h2 hst =>
        have : ({ id := y } : Incoming) ∈ n.incoming := by
          obtain ⟨st, _, he⟩ := List.mem_map.1 hmem
          rw [hinc]
          cases st <;> simp only [Stmt.ctor, reduceCtorEq, Ctor.like.injEq] at he
          case un e x _ => cases e <;> simp only [unCtor, reduceCtorEq, Ctor.like.injEq] at he <;> (obtain ⟨_, rfl, rfl⟩ := he; simp [inp])
          all_goals obtain ⟨_, rfl, rfl⟩ := he; simp [inp]
        exact ih y (hi.older x n hn _ this) s hst
      | @binary op a b sa sb hmem hop hinc h1 h2 hsa hsb happ =>
        refine .app happ fun z hz => ?_
        simp only [List.mem_cons, List.not_mem_nil, or_false] at hz
        rcases hz with rfl | rfl
        · exact ih a (hi.older x n hn { id := a } (by rw [hinc]; simp)) _ hsa
        · exact ih b (hi.older x n hn { id := b } (by rw [hinc]; simp)) _ hsb
      | sized hmem _ _ _ _ => exact absurd hmem (hns _ _ _)
      | const _ _ _ _ _ happ => exact .app happ (by simp)
      | scalar _ _ _ _ _ happ => exact .app happ (by simp)
      | vec _ _ _ _ _ happ => exact .app happ (by simp)
      | placeholder _ _ _ _ _ _ happ => exact .app happ (by simp)
    · exact .shape h

/-! ## Nodes of a program -/

/-- What is known of a node: a variable, a placeholder, or an op applied to inputs that do not move or satisfy its requirements. -/
inductive NodeIs (g : Graph POp) (X : List Nat) (p : Nat → Arr ℝ) (k : Nat) (n : Node POp) : Prop where
  | leaf : n.op = .var ∨ n.op = .placeholder → n.incoming = [] → n.placeholderName ≠ none ∨ n.variableId ≠ none → NodeIs g X p k n
  | app {xs} : IsApp g k n.op xs → n.backpropInputs = none → (∀ x ∈ xs, Still g X x) ∨ OpOk (Flat g p) p n.op xs → (∀ a ∈ fixedIn n.op xs, Still g X a) →
      (n.differentiable = false → ∀ t, jvp p t n.op xs = 0) → NodeIs g X p k n

theorem node_is {l : List Stmt} {g : Graph POp} {X : List Nat} {p : Nat → Arr ℝ} (hi : HInv hintOps (l.map Stmt.ctor) g) (hp : PInv hintOps (l.map Stmt.ctor) g)
    (hok : ∀ s ∈ l, StmtOk (Still g X) (Flat g p) p s ∨ ∃ x, s = .stopGradient x) {k : Nat} {n : Node POp} (hn : g.nodes[k]? = some n) : NodeIs g X p k n := by
  have mk' : ∀ (op : POp) (ins : List Incoming) (xs : List Nat), n.op = op → n.incoming = ins → ins = xs.map inp → Ordinary n →
      (∀ x ∈ xs, Still g X x) ∨ OpOk (Flat g p) p op xs → (∀ a ∈ fixedIn op xs, Still g X a) → (n.differentiable = false → ∀ t, jvp p t op xs = 0) → NodeIs g X p k n := by
    intro op ins xs ho hin he h1 h2 h3 h4
    refine .app (xs := xs) ⟨n, hn, rfl, hin.trans he, h1.1, h1.2.1⟩ h1.2.2 ?_ ?_ ?_
    · rw [ho]; exact h2
    · rw [ho]; exact h3
    · rw [ho]; exact h4
  have mk : ∀ (op : POp) (ins : List Incoming) (xs : List Nat), n.op = op → n.incoming = ins → ins = xs.map inp → Ordinary n → OpOk (Flat g p) p op xs →
      (∀ a ∈ fixedIn op xs, Still g X a) → (n.differentiable = false → ∀ t, jvp p t op xs = 0) → NodeIs g X p k n :=
    fun op ins xs ho hin he h1 h2 => mk' op ins xs ho hin he h1 (.inr h2)
  cases hp.made k n hn with
  | var a b c _ => exact .leaf (.inl a) b (.inr c)
  | placeholder a b c _ => exact .leaf (.inr a) b (.inl c)
  | const a b c => exact mk _ _ [] a b rfl c trivial (by simp [hintOps, fixedIn]) (fun _ _ => rfl)
  | @shape x a b c _ => exact mk _ _ [x] a b rfl c trivial (by simp [hintOps, fixedIn]) (fun _ _ => rfl)
  | @infer u v sa sb a b c d e =>
    refine mk _ _ [sa, sb] a b rfl c trivial ?_ (fun _ _ => rfl)
    intro z hz
    simp [hintOps, fixedIn] at hz
    rcases hz with rfl | rfl
    · exact shape_still hi _ _ d
    · exact shape_still hi _ _ e
  | @ctor c op ins hmem hc ho hin hord hdf =>
    obtain ⟨st, hst, rfl⟩ := List.mem_map.1 hmem
    have hd : n.differentiable = false → ∀ xs t, jvp p t op xs = 0 := by
      intro h xs t
      have := hdf.1 h
      cases st <;> simp only [Stmt.ctor, reduceCtorEq, Ctor.fixed.injEq] at this
      case un e x => cases e <;> simp [unCtor] at this
      case sizeOf => rw [← this.1]; rfl
      case stopGradient => rw [← this.1]; rfl
    by_cases hstop : ∃ x, st = .stopGradient x
    · obtain ⟨x, rfl⟩ := hstop
      simp only [Stmt.ctor, ctorNode, Option.some.injEq, Prod.mk.injEq] at hc
      obtain ⟨rfl, rfl⟩ := hc
      exact mk _ _ [x] ho hin rfl hord trivial (by simp [fixedIn]) (fun h => hd h _)
    have hs := (hok st hst).resolve_right hstop
    cases st <;> simp only [Stmt.ctor, ctorNode, reduceCtorEq, Option.some.injEq, Prod.mk.injEq] at hc
    case const a => obtain ⟨rfl, rfl⟩ := hc; exact mk _ _ [] ho hin rfl hord trivial (by simp [fixedIn]) (fun h => hd h _)
    case scalar a => obtain ⟨rfl, rfl⟩ := hc; exact mk _ _ [] ho hin rfl hord trivial (by simp [fixedIn]) (fun h => hd h _)
    case add a b => obtain ⟨rfl, rfl⟩ := hc; exact mk _ _ [a, b] ho hin rfl hord hs (by simp [fixedIn]) (fun h => hd h _)
    case sub a b => obtain ⟨rfl, rfl⟩ := hc; exact mk _ _ [a, b] ho hin rfl hord hs (by simp [fixedIn]) (fun h => hd h _)
    case mul a b => obtain ⟨rfl, rfl⟩ := hc; exact mk _ _ [a, b] ho hin rfl hord hs (by simp [fixedIn]) (fun h => hd h _)
    case div a b =>
      obtain ⟨rfl, rfl⟩ := hc
      exact mk' _ _ [a, b] ho hin rfl hord (hs.2.imp (fun h => by simpa using h) (fun h => ⟨hs.1, h⟩)) (by simp [fixedIn]) (fun h => hd h _)
    case un e x =>
      have : op = .un e ∧ ins = [inp x] := by
        cases e <;> simp only [unCtor, Option.some.injEq, Prod.mk.injEq] at hc <;> exact ⟨hc.1.symm, hc.2.symm⟩
      obtain ⟨rfl, rfl⟩ := this
      exact mk' _ _ [x] ho hin rfl hord (hs.imp (fun h => by simpa using h) id) (by simp [fixedIn]) (fun h => hd h _)
    case matmul a b => obtain ⟨rfl, rfl⟩ := hc; exact mk _ _ [a, b] ho hin rfl hord ⟨rfl, rfl⟩ (by simp [fixedIn]) (fun h => hd h _)
    case sumAll x => obtain ⟨rfl, rfl⟩ := hc; exact mk _ _ [x] ho hin rfl hord trivial (by simp [fixedIn]) (fun h => hd h _)
    case reduceSum x a keep =>
      obtain ⟨rfl, rfl⟩ := hc
      exact mk' _ _ [x, a] ho hin rfl hord (hs.2.imp (fun h => by simpa using ⟨h, hs.1⟩) id) (by simpa [fixedIn] using hs.1) (fun h => hd h _)
    case addN x y zs => obtain ⟨rfl, rfl⟩ := hc; exact mk _ _ (x :: y :: zs) ho hin rfl hord hs (by simp [fixedIn]) (fun h => hd h _)
    case reduceMean x a keep =>
      obtain ⟨rfl, rfl⟩ := hc
      exact mk' _ _ [x, a] ho hin rfl hord (hs.2.imp (fun h => by simpa using ⟨h, hs.1⟩) id) (by simpa [fixedIn] using hs.1) (fun h => hd h _)
    case softmax bot lay x axis =>
      obtain ⟨rfl, rfl⟩ := hc
      exact mk' _ _ [x] ho hin rfl hord (hs.imp (fun h => by simpa using h) id) (by simp [fixedIn]) (fun h => hd h _)
    case logSoftmax bot lay x axis =>
      obtain ⟨rfl, rfl⟩ := hc
      exact mk' _ _ [x] ho hin rfl hord (hs.imp (fun h => by simpa using h) id) (by simp [fixedIn]) (fun h => hd h _)
    case sigmoidCE x t =>
      obtain ⟨rfl, rfl⟩ := hc
      exact mk' _ _ [x, t] ho hin rfl hord (hs.2.imp (fun h => by simpa using ⟨h, hs.1⟩) id) (by simpa [fixedIn] using hs.1) (fun h => hd h _)
    case sparseCE bot lay x t =>
      obtain ⟨rfl, rfl⟩ := hc
      exact mk' _ _ [x, t] ho hin rfl hord (hs.2.imp (fun h => by simpa using ⟨h, hs.1⟩) id) (by simpa [fixedIn] using hs.1) (fun h => hd h _)
    case sizeOf x => obtain ⟨rfl, rfl⟩ := hc; exact mk _ _ [x] ho hin rfl hord trivial (by simp [fixedIn]) (fun h => hd h _)
    case zeros s => obtain ⟨rfl, rfl⟩ := hc; exact mk _ _ [s] ho hin rfl hord trivial (by simpa [fixedIn, StmtOk] using hs) (fun h => hd h _)
    case ones s => obtain ⟨rfl, rfl⟩ := hc; exact mk _ _ [s] ho hin rfl hord trivial (by simpa [fixedIn, StmtOk] using hs) (fun h => hd h _)
    case ident x => obtain ⟨rfl, rfl⟩ := hc; exact mk _ _ [x] ho hin rfl hord trivial (by simp [fixedIn]) (fun h => hd h _)
    case slice x starts stops =>
      obtain ⟨rfl, rfl⟩ := hc
      exact mk' _ _ [x] ho hin rfl hord (hs.imp (fun h => by simpa using h) id) (by simp [fixedIn]) (fun h => hd h _)
    case squeeze x a =>
      obtain ⟨rfl, rfl⟩ := hc
      exact mk' _ _ [x, a] ho hin rfl hord (hs.2.imp (fun h => by simpa using ⟨h, hs.1⟩) id) (by simpa [fixedIn] using hs.1) (fun h => hd h _)
    case transpose x a =>
      obtain ⟨rfl, rfl⟩ := hc
      exact mk' _ _ [x, a] ho hin rfl hord (hs.2.imp (fun h => by simpa using ⟨h, hs.1⟩) fun h => ⟨rfl, h⟩) (by simpa [fixedIn] using hs.1) (fun h => hd h _)
    case hook x => obtain ⟨rfl, rfl⟩ := hc; exact mk _ _ [x] ho hin rfl hord trivial (by simp [fixedIn]) (fun h => hd h _)
    case stopGradient x => exact absurd ⟨x, rfl⟩ hstop
    case extremum mx a b =>
      obtain ⟨rfl, rfl⟩ := hc
      exact mk' _ _ [a, b] ho hin rfl hord (hs.imp (fun h => by simpa using h) id) (by simp [fixedIn]) (fun h => hd h _)
    case reduceExt mx lim x a keep =>
      obtain ⟨rfl, rfl⟩ := hc
      exact mk' _ _ [x, a] ho hin rfl hord (hs.2.imp (fun h => by simpa using ⟨h, hs.1⟩) id) (by simpa [fixedIn] using hs.1) (fun h => hd h _)
    case reshape x a =>
      obtain ⟨rfl, rfl⟩ := hc
      exact mk' _ _ [x, a] ho hin rfl hord (hs.2.imp (fun h => by simpa using ⟨h, hs.1⟩) id) (by simpa [fixedIn] using hs.1) (fun h => hd h _)
    case gather norm a x axis =>
      obtain ⟨rfl, rfl⟩ := hc
      exact mk' _ _ [a, x] ho hin rfl hord (hs.2.imp (fun h => by simpa using ⟨hs.1, h⟩) id) (by simpa [fixedIn] using hs.1) (fun h => hd h _)
    case expandDims x a => obtain ⟨rfl, rfl⟩ := hc; exact mk' _ _ [x, a] ho hin rfl hord (.inl (by simpa [StmtOk] using hs)) (by simp [fixedIn]) (fun h => hd h _)
    case conv2d pad stride dil x w =>
      obtain ⟨rfl, rfl⟩ := hc
      exact mk' _ _ [x, w] ho hin rfl hord (hs.imp (fun h => by simpa using h) id) (by simp [fixedIn]) (fun h => hd h _)
    case maxPool bot k' pad stride x =>
      obtain ⟨rfl, rfl⟩ := hc
      exact mk' _ _ [x] ho hin rfl hord (hs.imp (fun h => by simpa using h) id) (by simp [fixedIn]) (fun h => hd h _)
    case dropout train ratio mask x =>
      obtain ⟨rfl, rfl⟩ := hc
      exact mk' _ _ [x] ho hin rfl hord (hs.imp (fun h => by simpa using h) id) (by simp [fixedIn]) (fun h => hd h _)
    case argMax bot lay x axis keep => obtain ⟨rfl, rfl⟩ := hc; exact mk' _ _ [x] ho hin rfl hord (.inl (by simpa [StmtOk] using hs)) (by simp [fixedIn]) (fun h => hd h _)
    case cmp c a b => obtain ⟨rfl, rfl⟩ := hc; exact mk' _ _ [a, b] ho hin rfl hord (.inl (by simpa [StmtOk] using hs)) (by simp [fixedIn]) (fun h => hd h _)

section
variable {F : List (Feed (Arr ℝ))} {N : List (Arr ℝ)}

/-- The value of an op tensor is what the op computes from the values of the inputs. -/
theorem run_of_evals {g : Graph POp} (hw : WF g) {t : Nat} {op : POp} {xs : List Nat} {p : Nat → Arr ℝ} {v : Arr ℝ} (ha : IsApp g t op xs)
    (hx : ∀ x ∈ xs, Evals (setting F N) g x (p x)) (ht : Evals (setting F N) g t v) : op.run (xs.map p) = .ok v := by
  obtain ⟨n, hn, rfl, hin, h1, h2⟩ := ha
  cases ht.1 with
  | placeholder hn' hv' hf' =>
    rw [hn] at hn'; cases hn'
    obtain ⟨name, _, h3, _⟩ := hf'
    rw [h1] at h3; cases h3
  | variable_ hn' hv' _ => rw [hn] at hn'; cases hn'; rw [h2] at hv'; cases hv'
  | @result ys y hm hy =>
    cases hm with
    | @run _ n' _ cv os hn' ho hu hins hf =>
      rw [hn] at hn'; cases hn'
      obtain ⟨y', rfl, hr⟩ := sem_ok hf
      simp at hy
      subst hy
      have : os.map OpInput.val = xs.map p := by
        apply List.ext_getElem?
        intro j
        have hlen := inputsAre_length hins
        rw [hin, List.length_map] at hlen
        by_cases hj : j < xs.length
        · obtain ⟨x, e1, e2⟩ := inputsAre_get hins j { id := xs[j] } (by rw [hin]; simp [hj])
          have hm := target_of_input hw rfl (fun ho => hu _ ⟨⟨n, hn, { id := xs[j] }, by rw [hin]; simp, rfl⟩, ho⟩) e2
          have := targetMeans_unique hm (hx xs[j] (List.getElem_mem _)).1
          have : x.val = p xs[j] := by injection this
          rw [List.getElem?_map, e1, List.getElem?_map, List.getElem?_eq_getElem hj]
          simp [this]
        · rw [List.getElem?_eq_none (by simp; omega), List.getElem?_eq_none (by simp; omega)]
      rw [← this]
      exact hr

/-- The requirements on calls imply those of C43. -/
theorem ctor_ok {g : Graph POp} {X : List Nat} {p : Nat → Arr ℝ} (hv : ∀ n, n < g.nodes.length → Evals (setting F N) g n (p n)) {st : Stmt} (hs : StmtOk (Still g X) (Flat g p) p st ∨ ∃ x, st = .stopGradient x) :
    CtorOk POp.sem Arr.shape encShape g F N st.ctor := by
  have hp : ∀ n v, TargetMeans POp.sem Arr.shape g F N n (.ok v) → v = p n := by
    intro n v h
    have hlt : ∃ m, g.nodes[n]? = some m := by
      cases h with
      | placeholder h _ _ => exact ⟨_, h⟩
      | variable_ h _ _ => exact ⟨_, h⟩
      | result h _ => cases h with
        | run h _ _ _ _ => exact ⟨_, h⟩
    obtain ⟨m, hm⟩ := hlt
    have := targetMeans_unique h (hv n (List.getElem?_eq_some_iff.1 hm).1).1
    injection this
  have hbin : ∀ (op : POp) (f : Arr ℝ → Arr ℝ → Res (Arr ℝ)), (∀ a b, op.run [a, b] = f a b) →
      (∀ a b y, f a b = .ok y → CommonShape a.shape b.shape y.shape) → ∀ a b, Inferable (p a).shape (p b).shape →
      CtorOk POp.sem Arr.shape encShape g F N (.binary op a b) := by
    intro op f h1 h2 a b hi
    refine ⟨fun xa xb y ys h => ?_, fun va vb ha hb => by rw [hp a va ha, hp b vb hb]; exact hi⟩
    obtain ⟨y', e, hr⟩ := sem_ok h
    cases e
    exact h2 _ _ _ (by rw [← h1]; exact hr)
  rcases hs with hs | ⟨x, rfl⟩
  swap
  · trivial
  cases st with
  | var vid => trivial
  | placeholder name s => exact hs
  | const a =>
    refine ⟨a.shape, rfl, fun y ys h => ?_⟩
    obtain ⟨y', e, hr⟩ := sem_ok h
    cases e; cases hr; rfl
  | scalar c =>
    intro y ys h
    obtain ⟨y', e, hr⟩ := sem_ok h
    cases e; cases hr; rfl
  | add a b => exact hbin .add addOp (fun _ _ => rfl) (fun _ _ _ h => arithmetic_common (.inl h)) a b hs
  | sub a b => exact hbin .sub subOp (fun _ _ => rfl) (fun _ _ _ h => arithmetic_common (.inr (.inl h))) a b hs
  | mul a b => exact hbin .mul mulOp (fun _ _ => rfl) (fun _ _ _ h => arithmetic_common (.inr (.inr (.inl h)))) a b hs
  | div a b => exact hbin .div divOp (fun _ _ => rfl) (fun _ _ _ h => arithmetic_common (.inr (.inr (.inr h)))) a b hs.1
  | un op x =>
    have : CtorOk POp.sem Arr.shape encShape g F N (.like (.un op) [inp x] x) := by
      refine ⟨0, inp x, rfl, rfl, rfl, fun xs xi y ys h1 h2 _ h => ?_⟩
      match xs, h1, h2 with
      | [u], h1, _ =>
        cases h1
        obtain ⟨y', e, hr⟩ := sem_ok h
        cases e; cases hr; rfl
    cases op <;> first | exact this | trivial
  | matmul a b => trivial
  | sumAll x => trivial
  | reduceSum x a keep => trivial
  | addN x y zs =>
    refine ⟨0, inp x, rfl, rfl, rfl, fun xs xi r ys h1 h2 h3 h => ?_⟩
    obtain ⟨y', e, hr⟩ := sem_ok h
    cases e
    have hval : xs.map OpInput.val = (x :: y :: zs).map p := by
      apply List.ext_getElem?
      intro j
      rw [List.length_map] at h2
      by_cases hj : j < (x :: y :: zs).length
      · have hj' : j < xs.length := by omega
        have := hp _ _ (h3 j (inp (x :: y :: zs)[j]) xs[j] (by rw [List.getElem?_map, List.getElem?_eq_getElem hj]; rfl) (List.getElem?_eq_getElem hj') rfl)
        rw [List.getElem?_map, List.getElem?_map, List.getElem?_eq_getElem hj, List.getElem?_eq_getElem hj']
        simp only [Option.map_some]
        rw [this]
      · rw [List.getElem?_eq_none (by rw [List.length_map]; omega), List.getElem?_eq_none (by rw [List.length_map]; omega)]
    have hsh : ∀ z ∈ x :: y :: zs, (p z).shape = (p x).shape := fun z hz => by
      rcases List.mem_cons.1 hz with rfl | hz
      · rfl
      · exact hs z hz
    obtain ⟨w, hw, hws, _⟩ := addN_value ((x :: y :: zs).map p) (p x).shape (by simp) (by
      intro w hw; obtain ⟨z, hz, rfl⟩ := List.mem_map.1 hw; exact hsh z hz)
    rw [hval] at hr
    have hr : Nd.addN ((x :: y :: zs).map p) = .ok r := hr
    rw [hw] at hr; cases hr
    have : xi.val = p x := by
      have := congrArg (fun l => l[0]?) hval
      simpa [h1] using this
    rw [hws, this]
  | shapeOf x => trivial
  | sizeOf x => trivial
  | reduceMean x a keep => trivial
  | softmax bot lay x axis => trivial
  | logSoftmax bot lay x axis =>
    refine ⟨0, inp x, rfl, rfl, rfl, fun xs xi y ys h1 h2 _ h => ?_⟩
    match xs, h1, h2 with
    | [u], h1, _ =>
      cases h1
      obtain ⟨y', e, hr⟩ := sem_ok h
      cases e; exact logSoftmax_shape hr
  | sigmoidCE x t =>
    refine ⟨0, inp x, rfl, rfl, rfl, fun xs xi y ys h1 h2 _ h => ?_⟩
    match xs, h1, h2 with
    | [u, w], h1, _ =>
      cases h1
      obtain ⟨y', e, hr⟩ := sem_ok h
      cases e; exact sigmoidCE_shape hr
  | sparseCE bot lay x t => trivial
  | zeros s => trivial
  | ones s => trivial
  | ident x =>
    refine ⟨0, inp x, rfl, rfl, rfl, fun xs xi y ys h1 h2 _ h => ?_⟩
    match xs, h1, h2 with
    | [u], h1, _ =>
      cases h1
      obtain ⟨y', e, hr⟩ := sem_ok h
      cases e; cases hr; rfl
  | slice x starts stops => trivial
  | squeeze x a => trivial
  | transpose x a => trivial
  | hook x => trivial
  | extremum mx a b => trivial
  | reduceExt mx lim x a keep => trivial
  | stopGradient x => trivial
  | reshape x a => trivial
  | gather norm a x axis => trivial
  | expandDims x a => trivial
  | conv2d pad stride dil x w => trivial
  | maxPool bot k pad stride x => trivial
  | dropout train ratio mask x => trivial
  | argMax bot lay x axis keep => trivial
  | cmp c a b => trivial

end

end Verif.Prog
