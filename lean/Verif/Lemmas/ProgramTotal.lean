import Verif.Lemmas.ProgramSafe
import Verif.Lemmas.ProgramSound
import Verif.Lemmas.GradBp

/-! `grad` of a program returns, unless the graph gets too large. -/

namespace Verif.Prog
open Verif Verif.Graph Verif.Nd Verif.Hint Verif.Gradient Verif.Spec

/-! ## The nodes -/

/-- The inputs for which the op reports no gradient. -/
def noGrad : POp → List Nat → List Nat
  | .infer, xs => xs
  | .un .sign, xs => xs
  | .reduceSum _, [_, a] => [a]
  | .reduceMean _, [_, a] => [a]
  | .zeros, xs => xs
  | .ones, xs => xs
  | .squeeze, [_, a] => [a]
  | .transpose _, [_, a] => [a]
  | .reduceExt _ _ _, [_, a] => [a]
  | .reshape, [_, a] => [a]
  | .gather _ _, [a, _] => [a]
  | .expandDims, [_, a] => [a]
  | .argMax _ _ _ _, xs => xs
  | .maybeReduce, [_, a] => [a]
  | .maybeBroadcast, [_, a] => [a]
  | .sumAllGrad, [_, a] => [a]
  | _, _ => []

/-- What is known of a tensor. -/
structure Formed (g : Graph POp) (X : List Nat) (n : Node POp) (xs : List Nat) : Prop where
  incoming : n.incoming = xs.map inp
  bp : n.bpInputs = n.incoming
  arity : Arity n.op xs ∨ (∃ c, n.op = .cmp c) ∧ Ordinary n ∧ ∀ x ∈ xs, Still g X x
  flat : n.op = .shape ∨ n.op = .size ∨ n.op = .stop → n.differentiable = false
  still : ∀ a ∈ noGrad n.op xs, Still g X a

theorem node_formed {l : List Stmt} {g : Graph POp} {X : List Nat} (hi : HInv hintOps (l.map Stmt.ctor) g) (hp : PInv hintOps (l.map Stmt.ctor) g)
    (hok : ∀ s ∈ l, GradGivenFor (Still g X) s) {k : Nat} {n : Node POp} (hn : g.nodes[k]? = some n) :
    ((n.op = .var ∨ n.op = .placeholder) ∧ n.incoming = [] ∧ n.bpInputs = []) ∨ ∃ xs, Formed g X n xs := by
  have mk : ∀ (op : POp) (ins : List Incoming) (xs : List Nat), n.op = op → n.incoming = ins → ins = xs.map inp → Ordinary n → Arity op xs →
      (op = .shape ∨ op = .size ∨ op = .stop → n.differentiable = false) → (∀ a ∈ noGrad op xs, Still g X a) →
      ((n.op = .var ∨ n.op = .placeholder) ∧ n.incoming = [] ∧ n.bpInputs = []) ∨ ∃ xs, Formed g X n xs := by
    rintro op ins xs rfl rfl h1 h2 h3 h4 h5
    exact .inr ⟨xs, h1, by simp [Node.bpInputs, h2.2.2], .inl h3, h4, h5⟩
  cases hp.made k n hn with
  | var a b c d => exact .inl ⟨.inl a, b, by simp [Node.bpInputs, d, b]⟩
  | placeholder a b c d => exact .inl ⟨.inr a, b, by simp [Node.bpInputs, d, b]⟩
  | const a b c => exact mk _ _ [] a b rfl c trivial (by simp [hintOps]) (by simp [hintOps, noGrad])
  | @shape x a b c d => exact mk _ _ [x] a b rfl c trivial (fun _ => d) (by simp [hintOps, noGrad])
  | @infer u v sa sb a b c d e =>
    refine mk _ _ [sa, sb] a b rfl c trivial (by simp [hintOps]) ?_
    intro z hz
    simp [hintOps, noGrad] at hz
    rcases hz with rfl | rfl
    · exact shape_still hi _ _ d
    · exact shape_still hi _ _ e
  | @ctor c op ins hmem hc ho hin hord hdf =>
    obtain ⟨st, hst, rfl⟩ := List.mem_map.1 hmem
    have hs := hok st hst
    cases st <;> simp only [Stmt.ctor, ctorNode, reduceCtorEq, Option.some.injEq, Prod.mk.injEq] at hc
    case const a => obtain ⟨rfl, rfl⟩ := hc; exact mk _ _ [] ho hin rfl hord trivial (by simp) (by simp [noGrad])
    case scalar a => obtain ⟨rfl, rfl⟩ := hc; exact mk _ _ [] ho hin rfl hord trivial (by simp) (by simp [noGrad])
    case add a b => obtain ⟨rfl, rfl⟩ := hc; exact mk _ _ [a, b] ho hin rfl hord trivial (by simp) (by simp [noGrad])
    case sub a b => obtain ⟨rfl, rfl⟩ := hc; exact mk _ _ [a, b] ho hin rfl hord trivial (by simp) (by simp [noGrad])
    case mul a b => obtain ⟨rfl, rfl⟩ := hc; exact mk _ _ [a, b] ho hin rfl hord trivial (by simp) (by simp [noGrad])
    case div a b => obtain ⟨rfl, rfl⟩ := hc; exact mk _ _ [a, b] ho hin rfl hord trivial (by simp) (by simp [noGrad])
    case un e x =>
      have : op = .un e ∧ ins = [inp x] := by
        cases e <;> simp only [unCtor, Option.some.injEq, Prod.mk.injEq] at hc <;> exact ⟨hc.1.symm, hc.2.symm⟩
      obtain ⟨rfl, rfl⟩ := this
      refine mk _ _ [x] ho hin rfl hord trivial (by simp) ?_
      cases e <;> first | (simp [noGrad]; done) | simpa [noGrad, GradGivenFor] using hs
    case matmul a b => obtain ⟨rfl, rfl⟩ := hc; exact mk _ _ [a, b] ho hin rfl hord trivial (by simp) (by simp [noGrad])
    case sumAll x => obtain ⟨rfl, rfl⟩ := hc; exact mk _ _ [x] ho hin rfl hord trivial (by simp) (by simp [noGrad])
    case reduceSum x a keep => obtain ⟨rfl, rfl⟩ := hc; exact mk _ _ [x, a] ho hin rfl hord trivial (by simp) (by simpa [noGrad, GradGivenFor] using hs)
    case addN x y zs => obtain ⟨rfl, rfl⟩ := hc; exact mk _ _ (x :: y :: zs) ho hin rfl hord trivial (by simp) (by simp [noGrad])
    case reduceMean x a keep => obtain ⟨rfl, rfl⟩ := hc; exact mk _ _ [x, a] ho hin rfl hord trivial (by simp) (by simpa [noGrad, GradGivenFor] using hs)
    case softmax bot lay x axis => obtain ⟨rfl, rfl⟩ := hc; exact mk _ _ [x] ho hin rfl hord trivial (by simp) (by simp [noGrad])
    case logSoftmax bot lay x axis => obtain ⟨rfl, rfl⟩ := hc; exact mk _ _ [x] ho hin rfl hord trivial (by simp) (by simp [noGrad])
    case sigmoidCE x t => obtain ⟨rfl, rfl⟩ := hc; exact mk _ _ [x, t] ho hin rfl hord trivial (by simp) (by simp [noGrad])
    case sparseCE bot lay x t => obtain ⟨rfl, rfl⟩ := hc; exact mk _ _ [x, t] ho hin rfl hord trivial (by simp) (by simp [noGrad])
    case sizeOf x => obtain ⟨rfl, rfl⟩ := hc; exact mk _ _ [x] ho hin rfl hord trivial (fun _ => hdf.2 rfl) (by simp [noGrad])
    case zeros s => obtain ⟨rfl, rfl⟩ := hc; exact mk _ _ [s] ho hin rfl hord trivial (by simp) (by simpa [noGrad, GradGivenFor] using hs)
    case ones s => obtain ⟨rfl, rfl⟩ := hc; exact mk _ _ [s] ho hin rfl hord trivial (by simp) (by simpa [noGrad, GradGivenFor] using hs)
    case ident x => obtain ⟨rfl, rfl⟩ := hc; exact mk _ _ [x] ho hin rfl hord trivial (by simp) (by simp [noGrad])
    case slice x starts stops => obtain ⟨rfl, rfl⟩ := hc; exact mk _ _ [x] ho hin rfl hord trivial (by simp) (by simp [noGrad])
    case squeeze x a => obtain ⟨rfl, rfl⟩ := hc; exact mk _ _ [x, a] ho hin rfl hord trivial (by simp) (by simpa [noGrad, GradGivenFor] using hs)
    case transpose x a => obtain ⟨rfl, rfl⟩ := hc; exact mk _ _ [x, a] ho hin rfl hord trivial (by simp) (by simpa [noGrad, GradGivenFor] using hs)
    case hook x => obtain ⟨rfl, rfl⟩ := hc; exact mk _ _ [x] ho hin rfl hord trivial (by simp) (by simp [noGrad])
    case stopGradient x => obtain ⟨rfl, rfl⟩ := hc; exact mk _ _ [x] ho hin rfl hord trivial (fun _ => hdf.2 rfl) (by simp [noGrad])
    case extremum mx a b => obtain ⟨rfl, rfl⟩ := hc; exact mk _ _ [a, b] ho hin rfl hord trivial (by simp) (by simp [noGrad])
    case reduceExt mx lim x a keep => obtain ⟨rfl, rfl⟩ := hc; exact mk _ _ [x, a] ho hin rfl hord trivial (by simp) (by simpa [noGrad, GradGivenFor] using hs)
    case reshape x a => obtain ⟨rfl, rfl⟩ := hc; exact mk _ _ [x, a] ho hin rfl hord trivial (by simp) (by simpa [noGrad, GradGivenFor] using hs)
    case gather norm a x axis => obtain ⟨rfl, rfl⟩ := hc; exact mk _ _ [a, x] ho hin rfl hord trivial (by simp) (by simpa [noGrad, GradGivenFor] using hs)
    case expandDims x a => obtain ⟨rfl, rfl⟩ := hc; exact mk _ _ [x, a] ho hin rfl hord trivial (by simp) (by simpa [noGrad, GradGivenFor] using hs)
    case conv2d pad stride dil x w => obtain ⟨rfl, rfl⟩ := hc; exact mk _ _ [x, w] ho hin rfl hord trivial (by simp) (by simp [noGrad])
    case maxPool bot k' pad stride x => obtain ⟨rfl, rfl⟩ := hc; exact mk _ _ [x] ho hin rfl hord trivial (by simp) (by simp [noGrad])
    case dropout train ratio mask x => obtain ⟨rfl, rfl⟩ := hc; exact mk _ _ [x] ho hin rfl hord trivial (by simp) (by simp [noGrad])
    case argMax bot lay x axis keep => obtain ⟨rfl, rfl⟩ := hc; exact mk _ _ [x] ho hin rfl hord trivial (by simp) (by simpa [noGrad, GradGivenFor] using hs)
    case cmp c a b =>
      obtain ⟨rfl, rfl⟩ := hc
      refine .inr ⟨[a, b], hin, by simp [Node.bpInputs, hord.2.2], .inr ⟨⟨c, ho⟩, hord, by simpa [GradGivenFor] using hs⟩, by simp [ho], by simp [ho, noGrad]⟩

/-- All other inputs get a gradient. -/
theorem gradOf_given {g g' : Graph POp} {y gy : Nat} {op : POp} {xs : List Nat} {gxs : List (Option Nat)} (ha : Arity op xs) (h : gradOf g y gy op xs = .ok (g', gxs))
    (hns : op ≠ .shape ∧ op ≠ .size ∧ op ≠ .stop) {k x : Nat} (hk : xs[k]? = some x) (hx : x ∉ noGrad op xs) : ∃ t, gxs[k]? = some (some t) := by
  have two : ∀ {a b u v : Nat}, [a, b][k]? = some x → ∃ t, [some u, some v][k]? = some (some t) := by
    intro a b u v h
    match k, h with
    | 0, _ => exact ⟨_, rfl⟩
    | 1, _ => exact ⟨_, rfl⟩
    | k + 2, h => cases h
  have one : ∀ {a u : Nat}, [a][k]? = some x → ∃ t, [some u][k]? = some (some t) := by
    intro a u h
    match k, h with
    | 0, _ => exact ⟨_, rfl⟩
    | k + 1, h => cases h
  have onen : ∀ {a b u : Nat}, [a, b][k]? = some x → x ∉ [b] → ∃ t, [some u, none][k]? = some (some t) := by
    intro a b u h hx
    match k, h with
    | 0, _ => exact ⟨_, rfl⟩
    | 1, h => cases h; exact absurd (by simp) hx
    | k + 2, h => cases h
  have none1 : ∀ {a b u : Nat}, [a, b][k]? = some x → x ∉ [a] → ∃ t, [none, some u][k]? = some (some t) := by
    intro a b u h hx
    match k, h with
    | 0, h => cases h; exact absurd (by simp) hx
    | 1, _ => exact ⟨_, rfl⟩
    | k + 2, h => cases h
  unfold Arity at ha
  split at ha
  · cases hk
  · cases hk
  · exact absurd rfl hns.1
  · exact absurd rfl hns.2.1
  · exact absurd (List.mem_of_getElem? hk) hx
  · simp only [gradOf] at h
    cases h
    exact ⟨gy, by rw [List.getElem?_map, hk]; rfl⟩
  · simp only [gradOf, bind_ok] at h
    obtain ⟨⟨_, _⟩, _, ⟨_, _⟩, _, ⟨_, _⟩, _, ⟨_, _⟩, _, h⟩ := h
    cases h
    exact two hk
  · simp only [gradOf, bind_ok] at h
    obtain ⟨⟨_, _⟩, _, ⟨_, _⟩, _, ⟨_, _⟩, _, ⟨_, _⟩, _, ⟨_, _⟩, _, h⟩ := h
    cases h
    exact two hk
  · simp only [gradOf, bind_ok] at h
    obtain ⟨⟨_, _⟩, _, ⟨_, _⟩, _, ⟨_, _⟩, _, ⟨_, _⟩, _, ⟨_, _⟩, _, ⟨_, _⟩, _, h⟩ := h
    cases h
    exact two hk
  · simp only [gradOf, bind_ok] at h
    obtain ⟨⟨_, _⟩, _, ⟨_, _⟩, _, ⟨_, _⟩, _, ⟨_, _⟩, _, ⟨_, _⟩, _, ⟨_, _⟩, _, ⟨_, _⟩, _, ⟨_, _⟩, _, ⟨_, _⟩, _, h⟩ := h
    cases h
    exact two hk
  · rename_i e z
    cases he : e.grad with
    | none =>
      have : e = .sign := by cases e <;> simp_all [EOp.grad]
      subst this
      exact absurd (List.mem_of_getElem? hk) hx
    | some ex =>
      simp only [gradOf, he, bind_ok] at h
      obtain ⟨⟨_, _⟩, _, h⟩ := h
      cases h
      exact one hk
  · simp only [gradOf, bind_ok] at h
    obtain ⟨⟨_, _⟩, _, ⟨_, _⟩, _, h⟩ := h
    cases h
    exact two hk
  · simp only [gradOf, bind_ok] at h
    obtain ⟨⟨_, _⟩, _, ⟨_, _⟩, _, h⟩ := h
    cases h
    exact one hk
  · simp only [gradOf, bind_ok] at h
    obtain ⟨⟨_, _⟩, _, ⟨_, _⟩, _, h⟩ := h
    cases h
    exact onen hk hx
  · simp only [gradOf] at h
    obtain ⟨ts, _, rfl⟩ := gradCmds_ok h
    exact onen hk hx
  · simp only [gradOf] at h
    obtain ⟨ts, _, rfl⟩ := gradCmds_ok h
    exact one hk
  · simp only [gradOf] at h
    obtain ⟨ts, _, rfl⟩ := gradCmds_ok h
    exact one hk
  · simp only [gradOf] at h
    obtain ⟨ts, _, rfl⟩ := gradCmds_ok h
    exact two hk
  · simp only [gradOf] at h
    obtain ⟨ts, _, rfl⟩ := gradCmds_ok h
    exact two hk
  · exact absurd (List.mem_of_getElem? hk) hx
  · exact absurd (List.mem_of_getElem? hk) hx
  · simp only [gradOf] at h
    cases h
    exact one hk
  · simp only [gradOf] at h
    obtain ⟨ts, _, rfl⟩ := gradCmds_ok h
    exact one hk
  · simp only [gradOf] at h
    obtain ⟨ts, _, rfl⟩ := gradCmds_ok h
    exact onen hk hx
  · simp only [gradOf] at h
    obtain ⟨ts, _, rfl⟩ := gradCmds_ok h
    exact onen hk hx
  · simp only [gradOf] at h
    obtain ⟨ts, _, rfl⟩ := gradCmds_ok h
    exact onen hk hx
  · simp only [gradOf] at h
    obtain ⟨ts, _, rfl⟩ := gradCmds_ok h
    exact none1 hk hx
  · simp only [gradOf] at h
    obtain ⟨ts, _, rfl⟩ := gradCmds_ok h
    exact onen hk hx
  · simp only [gradOf] at h
    obtain ⟨ts, _, rfl⟩ := gradCmds_ok h
    exact two hk
  · simp only [gradOf] at h
    obtain ⟨ts, _, rfl⟩ := gradCmds_ok h
    exact one hk
  · simp only [gradOf] at h
    obtain ⟨ts, _, rfl⟩ := gradCmds_ok h
    exact one hk
  · exact absurd (List.mem_of_getElem? hk) hx
  · simp only [gradOf, bind_ok] at h
    obtain ⟨⟨_, _⟩, _, ⟨_, _⟩, _, h⟩ := h
    cases h
    exact onen hk hx
  · simp only [gradOf, bind_ok] at h
    obtain ⟨⟨_, _⟩, _, ⟨_, _⟩, _, h⟩ := h
    cases h
    exact onen hk hx
  · simp only [gradOf, bind_ok] at h
    obtain ⟨⟨_, _⟩, _, h⟩ := h
    cases h
    exact onen hk hx
  · simp only [gradOf] at h
    obtain ⟨ts, _, rfl⟩ := gradCmds_ok h
    exact one hk
  · simp only [gradOf] at h
    obtain ⟨ts, _, rfl⟩ := gradCmds_ok h
    exact two hk
  · simp only [gradOf] at h
    obtain ⟨ts, _, rfl⟩ := gradCmds_ok h
    exact onen hk hx
  · exact absurd rfl hns.2.2
  · exact ha.elim

/-! ## The graph -/

/-- What is known of a graph, of some of whose tensors `C` the ops are known. -/
structure CoreShape (g : Graph POp) (C : Nat → Prop) (X : List Nat) : Prop where
  closed : InputsExist g
  bpDag : BpDag g
  hints : HintsIn g
  core : ∀ (k : Nat) (n : Node POp), C k → g.nodes[k]? = some n → ∀ i ∈ n.incoming, C i.id
  leaf : ∀ (k : Nat) (n : Node POp), C k → g.nodes[k]? = some n → n.placeholderName ≠ none ∨ n.variableId ≠ none → n.incoming = []
  node : ∀ (k : Nat) (n : Node POp), C k → g.nodes[k]? = some n → ((n.op = .var ∨ n.op = .placeholder) ∧ n.incoming = [] ∧ n.bpInputs = []) ∨ ∃ xs, Formed g X n xs

/-- What is known of the graph of a program. -/
abbrev ProgShape (g : Graph POp) (X : List Nat) : Prop := CoreShape g (fun _ => True) X

theorem progShape {l : List Stmt} {g : Graph POp} {X ts : List Nat} (hl : runProgram l = .ok (g, ts)) (hok : ∀ s ∈ l, GradGivenFor (Still g X) s) : ProgShape g X := by
  obtain ⟨_, hi, _⟩ := constructAll_ok hinv_empty (fun _ h => h) hl
  have hp : PInv hintOps (l.map Stmt.ctor) g := PInv.constructAll pinv_empty (fun _ h => h) hl
  have hnode := fun k n hn => node_formed hi hp hok (k := k) (n := n) hn
  have hcl : InputsExist g := fun k n hn i hii => by
    obtain ⟨m, hm, _⟩ := hp.ranked k n hn i hii
    exact (List.getElem?_eq_some_iff.1 hm).1
  have hbp : ∀ (k : Nat) (n : Node POp), g.nodes[k]? = some n → n.bpInputs = n.incoming := by
    intro k n hn
    rcases hnode k n hn with ⟨_, h1, h2⟩ | ⟨xs, h⟩
    · rw [h1, h2]
    · exact h.bp
  refine ⟨hcl, ?_, ?_, fun _ _ _ _ _ _ => trivial, ?_, fun k n _ => hnode k n⟩
  · intro a n hn
    rw [hbp a n hn]
    exact ⟨id, fun i hii => hp.ranked a n hn i hii⟩
  · intro x n s hn hs
    exact still_lt (shape_still (X := X) hi x s ⟨n, hn, .inl hs⟩)
  · intro k n _ hn h
    cases hp.made k n hn with
    | var _ a => exact a
    | placeholder _ a => exact a
    | const _ a => exact a
    | shape _ _ a => exact absurd h (by simp [a.1, a.2.1])
    | infer _ _ a => exact absurd h (by simp [a.1, a.2.1])
    | ctor _ _ _ _ a => exact absurd h (by simp [a.1, a.2.1])

section
variable {g g0 : Graph POp} {X ys sys : List Nat}
variable {C : Nat → Prop}

/-- The tensors with known ops together with the `sum_all` tensors. -/
theorem formed_sums (hP : CoreShape g C X) (hs : Summed gradOps.sumAll g ys g0 sys) {k : Nat} {n : Node POp} (hk : k < g.nodes.length → C k) (hn : g0.nodes[k]? = some n) :
    ((n.op = .var ∨ n.op = .placeholder) ∧ n.incoming = [] ∧ n.bpInputs = []) ∨ ∃ xs, Formed g X n xs := by
  by_cases hlt : k < g.nodes.length
  · have := hs.grows.1 _ _ (List.getElem?_eq_getElem hlt)
    rw [hn] at this; cases this
    exact hP.node k _ (hk hlt) (List.getElem?_eq_getElem hlt)
  · obtain ⟨y, hy, _, hin, ho, hbp, _⟩ := summed_node hs hn hlt
    exact .inr ⟨[y], hin, hbp, .inl (by rw [ho]; trivial), by rw [ho]; simp, by rw [ho]; simp [noGrad]⟩

/-- A tensor that does not depend on `X` does not lead to `X`. -/
theorem still_not_leads (hP : CoreShape g C X) (hs : Summed gradOps.sumAll g ys g0 sys) (hleaf : ∀ x ∈ X, IsLeaf g x) {n : Nat} (hc : C n) (h : Still g X n) : ¬ Leads g0 X n := by
  have key : ∀ {n op zs}, IsApp g n op zs → ∃ nd, g0.nodes[n]? = some nd ∧ nd.op = op ∧ nd.incoming = zs.map inp := by
    rintro n op zs ⟨nd, a, b, c, _⟩
    exact ⟨nd, hs.grows.1 _ _ a, b, c⟩
  have flat : ∀ {n op z}, C n → IsApp g n op [z] → op = .shape ∨ op = .size ∨ op = .stop → ¬ IsDiff g0 n := by
    rintro n op z hc ha ho ⟨nd', a', b'⟩
    obtain ⟨nd, a, b, c⟩ := key ha
    rw [a] at a'; cases a'
    rcases formed_sums hP hs (fun _ => hc) a with ⟨_, h, _⟩ | ⟨xs, h⟩
    · rw [h] at c; cases c
    · rw [h.flat (by rw [b]; exact ho)] at b'; cases b'
  induction h with
  | @leaf t hl hx =>
    intro h
    cases h with
    | here _ h => exact hx h
    | there _ hb _ =>
      obtain ⟨nd, a, i, hi, _⟩ := hb
      obtain ⟨nd', a', hl⟩ := hl
      have hin := hP.leaf t nd' hc a' hl
      rw [hs.grows.1 _ _ a'] at a; cases a
      rcases hP.node t _ hc a' with ⟨_, _, h⟩ | ⟨xs, h⟩
      · rw [h] at hi; cases hi
      · rw [h.bp, hin] at hi; cases hi
  | shape ha =>
    intro h
    cases h with
    | here hd _ => exact flat hc ha (.inl rfl) hd
    | there hd _ _ => exact flat hc ha (.inl rfl) hd
  | size ha =>
    intro h
    cases h with
    | here hd _ => exact flat hc ha (.inr (.inl rfl)) hd
    | there hd _ _ => exact flat hc ha (.inr (.inl rfl)) hd
  | stop ha =>
    intro h
    cases h with
    | here hd _ => exact flat hc ha (.inr (.inr rfl)) hd
    | there hd _ _ => exact flat hc ha (.inr (.inr rfl)) hd
  | @app t op zs ha hz ih =>
    intro h
    cases h with
    | here _ hx => exact not_leaf ha (hleaf _ hx)
    | there _ hb hl =>
      obtain ⟨nd, a, i, hi, rfl⟩ := hb
      obtain ⟨nd', a', _, c⟩ := key ha
      rw [a] at a'; cases a'
      rcases formed_sums hP hs (fun _ => hc) a with ⟨_, _, h⟩ | ⟨xs, h⟩
      · rw [h] at hi; cases hi
      · rw [h.bp, c] at hi
        obtain ⟨z, hz', rfl⟩ := List.mem_map.1 hi
        refine ih z hz' (hP.core t nd hc ?_ (inp z) (by rw [c]; exact List.mem_map_of_mem hz')) hl
        obtain ⟨nd2, a2, _⟩ := ha
        rw [hs.grows.1 _ _ a2] at a; cases a
        exact a2

/-! ## Guarded gradient functions -/

open Classical in
/-- The ops with gradient functions that refuse graphs with missing shape tensors, comparisons, and tensors whose op is not known. -/
noncomputable def guarded (K : Nat → Prop) : GradOps POp :=
  { gradOps with opGrad := fun op g y gy => if HintsIn g ∧ (∀ c, op ≠ .cmp c) ∧ K y then POp.opGrad op g y gy else .error (.graph .graphTooLarge) }

theorem guarded_pos {K : Nat → Prop} {op : POp} {h : Graph POp} {y gy : Nat} (hi : HintsIn h) (he : ∀ c, op ≠ .cmp c) (hk : K y) : (guarded K).opGrad op h y gy = POp.opGrad op h y gy := if_pos ⟨hi, he, hk⟩

theorem guarded_neg {K : Nat → Prop} {op : POp} {h : Graph POp} {y gy : Nat} (hi : ¬ (HintsIn h ∧ (∀ c, op ≠ .cmp c) ∧ K y)) : (guarded K).opGrad op h y gy = .error (.graph .graphTooLarge) := if_neg hi

theorem opGrad_eq {h : Graph POp} {y gy : Nat} {n : Node POp} (hn : h.nodes[y]? = some n) : POp.opGrad n.op h y gy = gradOf h y gy n.op (n.incoming.map Incoming.id) := by
  simp only [POp.opGrad, access_some.2 hn, lift, bind, Except.bind]

theorem leaf_fails {h : Graph POp} {y gy : Nat} {n : Node POp} (hn : h.nodes[y]? = some n) (ho : n.op = .var ∨ n.op = .placeholder) : POp.opGrad n.op h y gy = .error .opGrad := by
  rw [opGrad_eq hn]
  rcases ho with ho | ho <;> rw [ho] <;> rfl

theorem formed_safe (hP : CoreShape g C X) (hs : Summed gradOps.sumAll g ys g0 sys) {h : Graph POp} (hg : Grows g0 h) {y gy : Nat} {n : Node POp} {xs : List Nat}
    (hn : g0.nodes[y]? = some n) (hf : Formed g X n xs) (he : (∀ c, n.op ≠ .cmp c)) (hgy : gy < h.nodes.length) : Safe h (POp.opGrad n.op h y gy) Reported := by
  have hn' := hg.1 _ _ hn
  rw [opGrad_eq hn', hf.incoming, ids_map]
  refine gradOf_safe (hf.arity.resolve_right fun h => h.1.elim he) (fun x hx => ?_) (List.getElem?_eq_some_iff.1 hn').1 hgy
  exact hg.2 (hs.grows.2 hP.closed) y n hn' (inp x) (by rw [hf.incoming]; exact List.mem_map_of_mem hx)

theorem guarded_ok (hP : CoreShape g C X) (hs : Summed gradOps.sumAll g ys g0 sys) {h h' : Graph POp} (hg : Grows g0 h) {y gy : Nat} {n : Node POp} {gxs : List (Option Nat)}
    (hn : g0.nodes[y]? = some n) (hgy : gy < h.nodes.length) (ho : (guarded fun k => k < g.nodes.length → C k).opGrad n.op h y gy = .ok (h', gxs)) :
    ∃ xs, Formed g X n xs ∧ (y < g.nodes.length → C y) ∧ Arity n.op xs ∧ gradOf h y gy n.op xs = .ok (h', gxs) ∧ Grows h h' ∧ HintsIn h' ∧ Reported h' gxs := by
  by_cases hi : HintsIn h ∧ (∀ c, n.op ≠ .cmp c) ∧ (y < g.nodes.length → C y)
  · rw [guarded_pos hi.1 hi.2.1 hi.2.2] at ho
    rcases formed_sums hP hs hi.2.2 hn with ⟨hv, _⟩ | ⟨xs, hf⟩
    · rw [leaf_fails (hg.1 _ _ hn) hv] at ho; cases ho
    · obtain ⟨_, h2⟩ := formed_safe hP hs hg hn hf hi.2.1 hgy hi.1
      refine ⟨xs, hf, hi.2.2, hf.arity.resolve_right fun h => h.1.elim hi.2.1, ?_, h2 _ _ ho⟩
      rw [opGrad_eq (hg.1 _ _ hn), hf.incoming, ids_map] at ho
      exact ho
  · rw [guarded_neg hi] at ho; cases ho

/-- Inputs of known tensors are known. -/
theorem core_input (hP : CoreShape g C X) (hs : Summed gradOps.sumAll g ys g0 sys) (hyc : ∀ y ∈ ys, C y) {k : Nat} {n : Node POp} (hk : k < g.nodes.length → C k)
    (hn : g0.nodes[k]? = some n) : ∀ i ∈ n.incoming, C i.id := by
  by_cases hlt : k < g.nodes.length
  · have := hs.grows.1 _ _ (List.getElem?_eq_getElem hlt)
    rw [hn] at this; cases this
    exact hP.core k _ (hk hlt) (List.getElem?_eq_getElem hlt)
  · obtain ⟨y, hy, _, hin, _⟩ := summed_node hs hn hlt
    rw [hin]
    simpa using hyc y hy

/-- Only known tensors are reached. -/
theorem reached_core (hP : CoreShape g C X) (hs : Summed gradOps.sumAll g ys g0 sys) (hyc : ∀ y ∈ ys, C y) {k : Nat} (h : ReachedFrom g0 sys k) : k < g.nodes.length → C k := by
  induction h with
  | here h =>
    intro hlt
    have := ((hs.fresh _).1 h).1
    omega
  | @step q k _ _ hb ih =>
    intro _
    obtain ⟨n, hn, i, hi, rfl⟩ := hb
    refine core_input hP hs hyc ih hn i ?_
    rcases formed_sums hP hs ih hn with ⟨_, _, h⟩ | ⟨xs, hf⟩
    · rw [h] at hi; cases hi
    · rwa [hf.bp] at hi

theorem guarded_wf (hP : CoreShape g C X) (hs : Summed gradOps.sumAll g ys g0 sys) : GradWellFormed g0 (guarded fun k => k < g.nodes.length → C k).opGrad := by
  intro n node h h' gy gxs hg hn hd hgy ho
  obtain ⟨xs, hf, _, _, h1, h2, _, h3⟩ := guarded_ok hP hs hg hn hgy ho
  refine ⟨h2, ?_, h3⟩
  rw [hf.bp, hf.incoming, List.length_map]
  exact gradOf_length h1

theorem guarded_given (hP : CoreShape g C X) (hs : Summed gradOps.sumAll g ys g0 sys) (hyc : ∀ y ∈ ys, C y) (hleaf : ∀ x ∈ X, IsLeaf g x) : GradGiven g0 X (guarded fun k => k < g.nodes.length → C k).opGrad := by
  intro n node h h' gy gxs hg hn hd hgy ho k i hk hl
  obtain ⟨xs, hf, hcn, har, h1, _⟩ := guarded_ok hP hs hg hn hgy ho
  have hin := core_input hP hs hyc hcn hn
  rw [hf.bp, hf.incoming, List.getElem?_map] at hk
  cases hx : xs[k]? with
  | none => rw [hx] at hk; cases hk
  | some x =>
    rw [hx] at hk; cases hk
    refine gradOf_given har h1 ⟨fun e => ?_, fun e => ?_, fun e => ?_⟩ hx fun hm => still_not_leads hP hs hleaf (hin (inp x) (by rw [hf.incoming]; exact List.mem_map_of_mem (List.mem_of_getElem? hx))) (hf.still x hm) hl
    · rw [hf.flat (.inl e)] at hd; cases hd
    · rw [hf.flat (.inr (.inl e))] at hd; cases hd
    · rw [hf.flat (.inr (.inr e))] at hd; cases hd

/-- Back-propagation does not visit comparisons. -/
theorem visited_op (hP : CoreShape g C X) (hs : Summed gradOps.sumAll g ys g0 sys) (hyc : ∀ y ∈ ys, C y) (hleaf : ∀ x ∈ X, IsLeaf g x) {y : Nat} {n : Node POp}
    (hcn : y < g.nodes.length → C y) (hn : g0.nodes[y]? = some n) (hv : y ∈ sys ∨ Leads g0 X y ∧ ¬ IsSource g0 y) : (∀ c, n.op ≠ .cmp c) := by
  intro c he
  rcases hv with hv | ⟨hl, hns⟩
  · obtain ⟨h1, h2⟩ := (hs.fresh y).1 hv
    obtain ⟨_, _, _, _, ho, _⟩ := summed_node hs hn (by omega)
    rw [he] at ho; cases ho
  · rcases formed_sums hP hs hcn hn with ⟨ho | ho, _⟩ | ⟨xs, hf⟩
    · rw [he] at ho; cases ho
    · rw [he] at ho; cases ho
    rcases hf.arity with ha | ⟨_, hord, ha⟩
    · rw [he] at ha; exact ha.elim
    cases hl with
    | here hd hx =>
      obtain ⟨nd, a, b⟩ := hleaf y hx
      have := hs.grows.1 _ _ a
      rw [hn] at this; cases this
      rcases b with b | b
      · exact b hord.1
      · exact b hord.2.1
    | there hd hb hl =>
      obtain ⟨nd, a, i, hi, rfl⟩ := hb
      rw [hn] at a; cases a
      rw [hf.bp, hf.incoming] at hi
      obtain ⟨x, hx, rfl⟩ := List.mem_map.1 hi
      exact still_not_leads hP hs hleaf (core_input hP hs hyc hcn hn (inp x) (by rw [hf.incoming]; exact List.mem_map_of_mem hx)) (ha x hx) hl

theorem shapeTensor_safe {h : Graph POp} {x : Nat} (hx : x < h.nodes.length) : Safe h (lift (shapeTensor gradOps h x)) (fun g' t => t < g'.nodes.length) := shape_safe hx

theorem addN_safe {h : Graph POp} {x : Nat} {xs : List Nat} (hx : ∀ t ∈ x :: xs, t < h.nodes.length) :
    Safe h (lift (Gradient.addN gradOps h x xs)) (fun g' t => t < g'.nodes.length) := by
  cases xs with
  | nil => exact Safe.pure (hx x (by simp))
  | cons a as =>
    unfold Gradient.addN
    rw [lift_bind]
    refine (shapeTensor_safe (hx x (by simp))).bind fun g1 s h1 k1 => ?_
    refine build_safe (fun i hi => ?_) (by simpa using k1)
    obtain ⟨t, ht, rfl⟩ := List.mem_map.1 hi
    exact grows_lt h1 (hx t ht)

theorem scalarOne_hints {h h' : Graph POp} {t : Nat} (hi : HintsIn h) (ho : scalarOne gradOps h = .ok (h', t)) : HintsIn h' := by
  have : Safe h (lift (scalarOne gradOps h)) (fun _ _ => True) := by
    unfold scalarOne
    rw [lift_bind]
    refine (build_safe (by simp) (by simp)).bind fun g1 s h1 k1 => ?_
    show Safe g1 (lift (g1.build _ _ >>= _)) _
    rw [lift_bind]
    refine (build_safe (by simp) (by simpa using k1)).bind fun g2 c h2 k2 => ?_
    intro hi
    obtain ⟨a, b⟩ := build_safe (g := g2) (b := { shape := some c }) (op := gradOps.one) (by simp) (by simpa using k2) hi
    exact ⟨a, fun g' t ht => ⟨(b g' t ht).1, (b g' t ht).2.1, trivial⟩⟩
  exact ((this hi).2 h' t (by rw [ho]; rfl)).2.1

theorem gradient_hints {h h' : Graph POp} {m m' : GMap} {k gy : Nat} (hi : HintsIn h) (hex : GradsExist h m) (ho : gradient gradOps h m k = .ok (h', m', gy)) : HintsIn h' := by
  unfold gradient at ho
  cases hm : m k with
  | none => rw [hm] at ho; cases ho
  | some info =>
    rw [hm] at ho
    cases hgs : info.gradients with
    | nil => simp only [hgs] at ho; cases ho
    | cons a as =>
      cases as with
      | nil => simp only [hgs] at ho; cases ho; exact hi
      | cons b bs =>
        simp only [hgs, bind_ok] at ho
        obtain ⟨⟨g1, s⟩, h1, h2⟩ := ho
        cases h2
        exact ((addN_safe (x := a) (xs := b :: bs) (fun t ht => hex k info hm t (by rw [hgs]; exact ht)) hi).2 _ _ h1).2.1

theorem zeros_hints {h h' : Graph POp} {x z : Nat} (hi : HintsIn h) (hx : x < h.nodes.length) (ho : zerosLike gradOps h x = .ok (h', z)) : HintsIn h' := by
  have : Safe h (lift (zerosLike gradOps h x)) (fun g' t => t < g'.nodes.length) := by
    unfold zerosLike
    rw [lift_bind]
    refine (shapeTensor_safe hx).bind fun g1 s h1 k1 => ?_
    exact build_safe (by simpa using k1) (by simpa using k1)
  exact ((this hi).2 h' z (by rw [ho]; rfl)).2.1

theorem extractAll_hints : ∀ {xs : List Nat} {h h' : Graph POp} {m : GMap} {ts : List Nat}, HintsIn h → GradsExist h m → (∀ x ∈ xs, x < h.nodes.length) →
    extractAll gradOps xs h m = .ok (h', ts) → HintsIn h' := by
  intro xs
  induction xs with
  | nil => intro h h' m ts hi _ _ ho; cases ho; exact hi
  | cons x xs ih =>
    intro h h' m ts hi hex hx ho
    simp only [extractAll, bind_ok] at ho
    obtain ⟨⟨g1, m1, t⟩, h1, ⟨g2, ts2⟩, h2, h3⟩ := ho
    obtain ⟨rfl, _⟩ := Prod.mk.inj (Except.ok.inj h3)
    have hzero : ∀ {ga z}, zerosLike gradOps h x = .ok (ga, z) → HintsIn ga ∧ GradsExist ga m ∧ Grows h ga := fun hz => by
      have hgr := (zeros_builds (W := True) hz).grows
      exact ⟨zeros_hints hi (hx x (by simp)) hz, fun k info hk t ht => grows_lt hgr (hex k info hk t ht), hgr⟩
    obtain ⟨a, b, c⟩ : HintsIn g1 ∧ GradsExist g1 m1 ∧ Grows h g1 := by
      unfold extractOne at h1
      split at h1
      · split at h1
        · have f := gradient_facts h1 hex
          exact ⟨gradient_hints hi hex h1, f.2.1, f.1⟩
        · simp only [bind_ok, lift_ok] at h1
          obtain ⟨⟨ga, z⟩, h4, h5⟩ := h1
          cases h5
          exact hzero h4
      · simp only [bind_ok, lift_ok] at h1
        obtain ⟨⟨ga, z⟩, h4, h5⟩ := h1
        cases h5
        exact hzero h4
    exact ih a b (fun z hz => grows_lt c (hx z (by simp [hz]))) h2

/-- The loop never meets a graph with missing shape tensors. -/
theorem loop_same {G : Prop} (hP : CoreShape g C X) (hs : Summed gradOps.sumAll g ys g0 sys) (hyc : ∀ y ∈ ys, C y) (hleaf : ∀ x ∈ X, IsLeaf g x) (hG : G → GradGiven g0 X (guarded fun k => k < g.nodes.length → C k).opGrad) (hg : BpDag g0)
    {pick : Graph POp → List Nat → Nat} (hpick : PicksMax pick) :
    ∀ (fuel : Nat) (s : BpState POp), Struct G g0 sys X s → HintsIn s.g → BpDag s.g → bpLoop gradOps pick fuel s = bpLoop (guarded fun k => k < g.nodes.length → C k) pick fuel s ∧
      ∀ s', bpLoop gradOps pick fuel s = some (.ok s') → GradsExist s'.g s'.m ∧ HintsIn s'.g ∧ BpDag s'.g := by
  intro fuel
  induction fuel with
  | zero => intro s _ _ _; exact ⟨rfl, fun s' h => by cases h⟩
  | succ fuel ih =>
    intro s hst hi hbp
    by_cases he : s.heap = []
    · refine ⟨by simp [bpLoop, he], fun s' h => ?_⟩
      simp only [bpLoop, he, if_true, Option.some.injEq, Except.ok.injEq] at h
      subst h
      exact ⟨hst.exist, hi, hbp⟩
    obtain ⟨hy, hmax⟩ := hpick s.g s.heap he
    have hst' := hst
    obtain ⟨C', hI⟩ := hst.inv
    obtain ⟨⟨n, hn, hnd⟩, hvis0, hinfo⟩ := hI.heapIn _ hy
    have hcn : pick s.g s.heap < g.nodes.length → C (pick s.g s.heap) := reached_core hP hs hyc (hst.reached _ (by obtain ⟨info, hm, _⟩ := hinfo; simp [hm]))
    have hne := visited_op hP hs hyc hleaf hcn hn hvis0
    have hvis : bpVisit gradOps s (pick s.g s.heap) = bpVisit (guarded fun k => k < g.nodes.length → C k) s (pick s.g s.heap) ∧
        ∀ s', bpVisit (guarded fun k => k < g.nodes.length → C k) s (pick s.g s.heap) = .ok s' → HintsIn s'.g ∧ BpDag s'.g := by
      have e : gradient (guarded fun k => k < g.nodes.length → C k) s.g s.m (pick s.g s.heap) = gradient gradOps s.g s.m (pick s.g s.heap) := rfl
      unfold bpVisit
      rw [e]
      cases h1 : gradient gradOps s.g s.m (pick s.g s.heap) with
      | error p => exact ⟨rfl, fun s' h => by cases h⟩
      | ok v =>
        obtain ⟨g1, m1, gy⟩ := v
        have hi1 := gradient_hints hi hst.exist h1
        obtain ⟨a1, _, a3, _⟩ := gradient_facts h1 hst.exist
        have hgr1 := hI.grows.trans a1
        have hac : lift (g1.access (pick s.g s.heap)) = .ok n := lift_ok.2 (access_some.2 (hgr1.1 _ _ hn))
        simp only [bind, Except.bind, hac, guarded_pos (K := fun k => k < g.nodes.length → C k) hi1 hne hcn]
        refine ⟨rfl, fun s' h => ?_⟩
        cases h2 : POp.opGrad n.op g1 (pick s.g s.heap) gy with
        | error p => rw [h2] at h; cases h
        | ok v =>
          obtain ⟨g2, gxs⟩ := v
          obtain ⟨_, _, _, _, _, _, h3, _⟩ := guarded_ok hP hs hgr1 hn a3 (by rw [guarded_pos (K := fun k => k < g.nodes.length → C k) hi1 hne hcn]; exact h2)
          have hb2 : BpDag g2 := by
            have hn1 := hgr1.1 _ _ hn
            rcases formed_sums hP hs hcn hn with ⟨ho, _, _⟩ | ⟨zs, hf⟩
            · rw [leaf_fails hn1 ho] at h2; cases h2
            · rw [opGrad_eq hn1, hf.incoming, show (zs.map inp).map Incoming.id = zs by simp [inp, Function.comp_def]] at h2
              exact gradOf_bpDag ((gradient_builds (W := False) h1).bpDag hbp) hn1 hf.incoming hf.bp a3 h2
          rw [h2] at h
          simp only at h
          split at h
          · cases h
          · split at h
            · cases h
            · cases h; exact ⟨h3, hb2⟩
    simp only [bpLoop, he, if_false, hvis.1]
    cases hv : bpVisit (guarded fun k => k < g.nodes.length → C k) s (pick s.g s.heap) with
    | error p => exact ⟨rfl, fun s' h => by cases h⟩
    | ok s1 =>
      have hrank : ∀ k ∈ s.heap, HasRank s.g k (rk g0 k) := by
        intro k hk
        obtain ⟨⟨n, hn, _⟩, _⟩ := hI.heapIn k hk
        exact ⟨n, hI.grows.1 _ _ hn, (rk_eq hn).symm⟩
      obtain ⟨_, h2⟩ := bpVisit_struct (guarded_wf hP hs) hG hg hst hy (fun k hk => hmax k hk _ _ (hrank k hk) (hrank _ hy)) hv
      exact ih s1 h2 (hvis.2 s1 hv).1 (hvis.2 s1 hv).2

theorem summed_hints (hP : CoreShape g C X) (hs : Summed gradOps.sumAll g ys g0 sys) : HintsIn g0 := by
  intro x n s hx hsh
  by_cases hlt : x < g.nodes.length
  · have := hs.grows.1 _ _ (List.getElem?_eq_getElem hlt)
    rw [hx] at this; cases this
    exact grows_lt hs.grows (hP.hints x _ s (List.getElem?_eq_getElem hlt) hsh)
  · obtain ⟨_, _, _, _, _, _, h⟩ := summed_node hs hx hlt
    rw [h] at hsh; cases hsh

theorem grad_same (hP : CoreShape g C X) {pick : Graph POp → List Nat → Nat} (hpick : PicksMax pick) (hyc : ∀ y ∈ ys, C y) (hleaf : ∀ x ∈ X, IsLeaf g x) (fuel : Nat) :
    grad gradOps pick fuel g ys X = grad (guarded fun k => k < g.nodes.length → C k) pick fuel g ys X := by
  unfold grad computeGradients
  split
  · rfl
  have e0 : sumAlls (guarded fun k => k < g.nodes.length → C k) g ys = sumAlls gradOps g ys := by
    have : ∀ (ys : List Nat) (h : Graph POp), sumAlls (guarded fun k => k < g.nodes.length → C k) h ys = sumAlls gradOps h ys := by
      intro ys
      induction ys with
      | nil => intro g; rfl
      | cons y ys ih =>
        intro g
        simp only [sumAlls, ih]
        rfl
    exact this ys g
  have e3 : ∀ (xs : List Nat) (h : Graph POp) (m : GMap), extractAll (guarded fun k => k < g.nodes.length → C k) xs h m = extractAll gradOps xs h m := by
    intro xs
    induction xs with
    | nil => intro g m; rfl
    | cons x xs ih =>
      intro g m
      simp only [extractAll, ih]
      rfl
  rw [e0]
  cases h0 : sumAlls gradOps g ys with
  | error p => rfl
  | ok v =>
    obtain ⟨g0, sys⟩ := v
    have hs := sumAlls_ok h0
    have hg0 := hs.bpDag hP.bpDag
    have hd := hs.isDiff
    have hylt : ∀ y ∈ sys, y < g0.nodes.length := fun y hy => by
      obtain ⟨n, hn, _⟩ := hd y hy
      exact (List.getElem?_eq_some_iff.1 hn).1
    obtain ⟨m, N, hm, hin, _, huniq⟩ := initMap_ok (xs := X) hg0 hylt
    simp only
    cases hmap : initMap g0 sys X fuel with
    | none => rfl
    | some r =>
      cases huniq fuel r hmap
      have e1 : scalarOne (guarded fun k => k < g.nodes.length → C k) g0 = scalarOne gradOps g0 := rfl
      simp only [e1]
      cases h1 : scalarOne gradOps g0 with
      | error p => rfl
      | ok v =>
        obtain ⟨g1, one⟩ := v
        obtain ⟨hgr1, n1, hn1, _⟩ := scalarOne_ok h1
        have hz : (sys.map (fun y => (y, one))).map Prod.fst = sys := map_fst
        obtain ⟨m', hm'⟩ := pushAll_total (ps := sys.map (fun y => (y, one))) (m := m) (by rw [hz]; exact hin)
        have hst := start_struct (G := True) hgr1 hm (by rw [hz]; exact hs.nodup) (by rw [hz]; exact hd) (by rw [hz]; exact hin)
          (by rw [hz]; exact initMap_reached hd hmap) (fun p hp => by
            obtain ⟨y, hy, rfl⟩ := List.mem_map.1 hp
            exact (List.getElem?_eq_some_iff.1 hn1).1) hm'
        rw [hz] at hst
        have hloop := loop_same hP hs hyc hleaf (G := True) (fun _ => guarded_given hP hs hyc hleaf) hg0 hpick fuel _ hst (scalarOne_hints (summed_hints hP hs) h1) ((scalarOne_builds (W := False) h1).bpDag hg0)
        simp only [lift, hm', bind, Except.bind, hloop.1]
        cases bpLoop (guarded fun k => k < g.nodes.length → C k) pick fuel ⟨g1, m', sys, []⟩ with
        | none => rfl
        | some r =>
          cases r with
          | error p => rfl
          | ok s => simp only [e3]

end

/-- After `grad` the recorded shape tensors exist, and the back-propagation inputs form a dag. -/
theorem grad_keeps {g : Graph POp} {C : Nat → Prop} {ys xs : List Nat} (hP : CoreShape g C xs) {pick : Graph POp → List Nat → Nat} (hpick : PicksMax pick)
    (hyc : ∀ y ∈ ys, C y) (hleaf : ∀ x ∈ xs, IsLeaf g x) {fuel : Nat} {r : GradResult POp} (h : grad gradOps pick fuel g ys xs = some (.ok r)) :
    HintsIn r.g ∧ BpDag r.g := by
  obtain ⟨g0, sys, g1, one, m, m', s, h0, hmap, h1, hm', h4, h5, _⟩ := Gradient.grad_ok h
  have hs := sumAlls_ok h0
  have hg0 := hs.bpDag hP.bpDag
  have hd := hs.isDiff
  have hylt : ∀ y ∈ sys, y < g0.nodes.length := fun y hy => by
    obtain ⟨n, hn, _⟩ := hd y hy
    exact (List.getElem?_eq_some_iff.1 hn).1
  obtain ⟨m0, N, hm, hin, _, huniq⟩ := initMap_ok (xs := xs) hg0 hylt
  cases huniq fuel _ hmap
  obtain ⟨hgr1, n1, hn1, _⟩ := scalarOne_ok h1
  have hz : (sys.map (fun y => (y, one))).map Prod.fst = sys := map_fst
  have hst := start_struct (G := True) hgr1 hm (by rw [hz]; exact hs.nodup) (by rw [hz]; exact hd) (by rw [hz]; exact hin)
    (by rw [hz]; exact initMap_reached hd hmap) (fun p hp => by
      obtain ⟨y, hy, rfl⟩ := List.mem_map.1 hp
      exact (List.getElem?_eq_some_iff.1 hn1).1) hm'
  rw [hz] at hst
  obtain ⟨_, hloop⟩ := loop_same hP hs hyc hleaf (G := True) (fun _ => guarded_given hP hs hyc hleaf) hg0 hpick fuel _ hst (scalarOne_hints (summed_hints hP hs) h1)
    ((scalarOne_builds (W := False) h1).bpDag hg0)
  obtain ⟨a, b, c⟩ := hloop s h4
  have hlt : ∀ x ∈ xs, x < s.g.nodes.length := fun x hx => by
    obtain ⟨n, hn, _⟩ := hleaf x hx
    exact grows_lt ((hs.grows.trans hgr1).trans (bpLoop_builds opGrad_builds h4).grows) (List.getElem?_eq_some_iff.1 hn).1
  exact ⟨extractAll_hints b a hlt h5, (extractAll_builds (W := False) h5).bpDag c⟩

/-- `grad` returns, unless the graph gets too large. -/
theorem grad_returns_core {g : Graph POp} {C : Nat → Prop} {ys xs : List Nat} (hP : CoreShape g C xs) {pick : Graph POp → List Nat → Nat} (hpick : PicksMax pick) (hne : ys ≠ [])
    (hyc : ∀ y ∈ ys, C y) (hy : ∀ y ∈ ys, y < g.nodes.length) (hleaf : ∀ x ∈ xs, IsLeaf g x) :
    ∃ N, ∀ fuel, N ≤ fuel →
      (∃ r, grad gradOps pick fuel g ys xs = some (.ok r) ∧ r.grads.length = xs.length) ∨ grad gradOps pick fuel g ys xs = some (.error (.graph .graphTooLarge)) := by
  have hlt : ∀ x ∈ xs, x < g.nodes.length := fun x hx => by
    obtain ⟨n, hn, _⟩ := hleaf x hx
    exact (List.getElem?_eq_some_iff.1 hn).1
  obtain ⟨N, hN⟩ := grad_total (O := (guarded fun k => k < g.nodes.length → C k)) (ys := ys) (xs := xs) hP.bpDag hpick hne hy hP.hints hlt
  refine ⟨N, fun fuel hf => ?_⟩
  rw [grad_same hP hpick hyc hleaf fuel]
  rcases hN fuel hf with h | ⟨g0, sys, hs, h⟩
  · exact .inr h
  obtain ⟨r, h1, h2⟩ := h (guarded_wf hP hs)
  rw [h1]
  rcases h2 with ⟨res, rfl, _, h2⟩ | ⟨p, rfl, h2⟩
  · exact .inl ⟨res, rfl, h2.length_eq.symm⟩
  refine .inr ?_
  rcases h2 with (rfl | ⟨y, _, hvis, n, g1, gy, hn, hg1, hgy, hfail⟩) | ⟨_, h2⟩
  · rfl
  · by_cases hi : HintsIn g1 ∧ (∀ c, n.op ≠ .cmp c) ∧ (y < g.nodes.length → C y)
    · rw [guarded_pos hi.1 hi.2.1 hi.2.2] at hfail
      rcases formed_sums hP hs hi.2.2 hn with ⟨_, hin, _⟩ | ⟨zs, hf⟩
      · exfalso
        rcases hvis with hys | ⟨_, hns⟩
        · obtain ⟨h3, h4⟩ := (hs.fresh y).1 hys
          obtain ⟨_, _, _, h5, _⟩ := summed_node hs hn (by omega)
          rw [hin] at h5; cases h5
        · exact hns ⟨n, hn, hin⟩
      · rw [(formed_safe hP hs hg1 hn hf hi.2.1 hgy hi.1).1 p hfail]
    · rw [guarded_neg hi] at hfail; cases hfail; rfl
  · exact absurd (fun {_ _ _ _ _ _} => guarded_given hP hs hyc hleaf) h2

/-- `grad` of a program returns, unless the graph gets too large. -/
theorem grad_returns {g : Graph POp} {ys xs : List Nat} (hP : ProgShape g xs) {pick : Graph POp → List Nat → Nat} (hpick : PicksMax pick) (hne : ys ≠ [])
    (hy : ∀ y ∈ ys, y < g.nodes.length) (hleaf : ∀ x ∈ xs, IsLeaf g x) :
    ∃ N, ∀ fuel, N ≤ fuel →
      (∃ r, grad gradOps pick fuel g ys xs = some (.ok r) ∧ r.grads.length = xs.length) ∨ grad gradOps pick fuel g ys xs = some (.error (.graph .graphTooLarge)) :=
  grad_returns_core hP hpick hne (fun _ _ => trivial) hy hleaf

end Verif.Prog
