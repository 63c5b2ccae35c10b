import Verif.Lemmas.RealVary
import Verif.Lemmas.GradTangent
import Verif.Lemmas.ProgramGraph
import Verif.Lemmas.ProgramVary

/-! Soundness of the gradients of a program, and variation of its values. -/

namespace Verif.Prog
open Verif Verif.Graph Verif.Nd Verif.Hint Verif.Gradient Verif.Spec Verif.Eval

section
variable {F : List (Feed (Arr ℝ))} {N : List (Arr ℝ)} {g0 : Graph POp} {Z : Nat → Prop} {X : List Nat} {p : Nat → Arr ℝ}

/-- A graph whose values are known; the tensors of `Z` do not move. -/
structure Good (S : Setting POp Unit (Arr ℝ)) (g0 : Graph POp) (Z : Nat → Prop) (p : Nat → Arr ℝ) : Prop where
  closed : InputsExist g0
  evals : ∀ n, n < g0.nodes.length → Evals S g0 n (p n)
  hint : ∀ n, n < g0.nodes.length → Hinted S g0 n (p n).shape
  node : ∀ (k : Nat) (nd : Node POp), g0.nodes[k]? = some nd →
    ((nd.op = .var ∨ nd.op = .placeholder) ∧ nd.incoming = [] ∧ nd.bpInputs = []) ∨
      ∃ xs, IsApp g0 k nd.op xs ∧ nd.bpInputs = nd.incoming ∧ ((∀ x ∈ xs, Z x) ∨ OpOk (fun _ _ => True) p nd.op xs) ∧ (∀ a ∈ fixedIn nd.op xs, Z a) ∧
        nd.op.run (xs.map p) = .ok (p k)
  still : ∀ (k : Nat) (nd : Node POp), g0.nodes[k]? = some nd → Z k → nd.op = .shape ∨ nd.op = .size ∨ nd.op = .stop ∨ ∀ i ∈ nd.incoming, Z i.id

theorem jvp_congr (t t' : Nat → List Nat → ℝ) (op : POp) (xs : List Nat) (h : ∀ x ∈ xs, t x = t' x) : jvp p t op xs = jvp p t' op xs := by
  unfold jvp
  split
  · funext i
    congr 1
    exact List.map_congr_left fun x hx => by rw [h x hx]
  all_goals simp_all

theorem jvp_zero (t : Nat → List Nat → ℝ) (op : POp) (xs : List Nat) (h : ∀ x ∈ xs, t x = 0) : jvp p t op xs = 0 := by
  rw [jvp_congr t 0 op xs h]
  unfold jvp
  split
  case h_16 => exact linAt_zero fun y h => slice_zero rfl h
  case h_17 => exact linAt_zero fun y h => squeezeLoop_zero rfl h
  case h_18 => exact linAt_zero fun y h => transpose_zero rfl h
  case h_19 => exact linAt_zero fun y h => reshape_zero rfl h
  case h_20 => exact linAt_zero fun y h => gather_zero rfl h
  case h_21 => funext i; exact (congrArg₂ (· + ·) (convAt_zero_left rfl i) (convAt_zero_right rfl i)).trans (add_zero 0)
  all_goals funext i; simp [lineSum]

theorem jvp_congr_values {p' : Nat → Arr ℝ} (t : Nat → List Nat → ℝ) (op : POp) (xs : List Nat) (h : ∀ x ∈ xs, p x = p' x) : jvp p t op xs = jvp p' t op xs := by
  unfold jvp
  split <;> simp_all

theorem poolOk_mono {flt flt' : List Nat → Prop} {bot : ℝ} {k pad stride : Nat} {x : Arr ℝ} (h : ∀ i, flt i → flt' i) (hok : PoolOk flt bot k pad stride x) :
    PoolOk flt' bot k pad stride x := by
  obtain ⟨h1, h2, h3, h4, batch, ch, xh, xw, h5, h6, h7, h8⟩ := hok
  exact ⟨h1, h2, h3, h4, batch, ch, xh, xw, h5, h6, h7, fun o q r a b c d => (h8 o q r a b c d).imp id fun e => ⟨h _ e.1, h _ e.2⟩⟩

theorem opOk_congr {flat : Nat → List Nat → Prop} {p' : Nat → Arr ℝ} {op : POp} {xs : List Nat} (h : ∀ x ∈ xs, p x = p' x) (hok : OpOk flat p op xs) :
    OpOk (fun _ _ => True) p' op xs := by
  unfold OpOk at hok ⊢
  split at hok
  case h_29 x => rw [← h x (by simp)]; exact poolOk_mono (fun _ _ => trivial) hok
  all_goals simp_all

theorem ids_map (xs : List Nat) : (xs.map inp).map Incoming.id = xs := by simp [Function.comp_def]

theorem lin_eq {S : Setting POp Unit (Arr ℝ)} {n : Nat} {nd : Node POp} (h : g0.nodes[n]? = some nd) (t : Nat → List Nat → ℝ) :
    (arrCalc S g0 Z p).lin n t = jvp p (mask Z t) nd.op (nd.incoming.map Incoming.id) := by
  show (match g0.nodes[n]? with
    | some nd => jvp p (mask Z t) nd.op (nd.incoming.map Incoming.id)
    | none => 0) = _
  rw [h]

/-- The sum of gradients. -/
theorem rep_addN {g : Graph POp} {n s : Nat} {ts : List Nat} {cs : List ((List Nat → ℝ) →+ ℝ)} (hl : 2 ≤ ts.length) (ha : IsApp g s .addN ts)
    (hts : List.Forall₂ ((arrCalc (setting F N) g0 Z p).Rep g n) ts cs) : (arrCalc (setting F N) g0 Z p).Rep g n s cs.sum := by
  by_cases hz : Z n
  · refine .inl ⟨hz, ?_⟩
    clear ha hl
    induction hts with
    | nil => rfl
    | cons h1 _ ih =>
      rcases h1 with ⟨_, h1⟩ | ⟨h1, _⟩
      · rw [List.sum_cons, ih]; exact (add_zero _).trans h1
      · exact absurd hz h1
  have : ∃ vs : List (Arr ℝ), List.Forall₂ (Evals (setting F N) g) ts vs ∧ (∀ v ∈ vs, v.shape = (p n).shape) ∧
      ∀ τ : List Nat → ℝ, (cs.sum : (List Nat → ℝ) →+ ℝ) τ = inner (p n).shape (fun i => (vs.map (fun v => v.get i)).sum) τ := by
    clear ha hl
    induction hts with
    | nil => exact ⟨[], .nil, by simp, fun τ => by simp [inner]⟩
    | cons h1 _ ih =>
      obtain ⟨v, h3, h4, _, h5⟩ := (h1.resolve_left fun h => hz h.1).2
      obtain ⟨vs, h6, h7, h8⟩ := ih
      refine ⟨v :: vs, .cons h3 h6, by simpa using ⟨h4, h7⟩, fun τ => ?_⟩
      rw [List.sum_cons]
      have e : inner (p n).shape (fun i => ((v :: vs).map (fun v => v.get i)).sum) τ =
          inner (p n).shape v.get τ + inner (p n).shape (fun i => (vs.map (fun v => v.get i)).sum) τ := by
        simp [inner, add_mul, Finset.sum_add_distrib]
      rw [e]
      exact congrArg₂ (fun a b : ℝ => a + b) (h5 τ) (h8 τ)
  obtain ⟨vs, h1, h2, h3⟩ := this
  have hlen := h1.length_eq
  match vs, h1, h2, h3, hlen with
  | [], _, _, _, hlen => simp at hlen; simp [hlen] at hl
  | [_], _, _, _, hlen => simp at hlen; simp [hlen] at hl
  | v :: w :: vs, h1, h2, h3, _ =>
    obtain ⟨y, e1, e2, e3⟩ := addN_value (v :: w :: vs) (p n).shape (by simp) h2
    refine .inr ⟨hz, y, evals_run ha h1 e1, e2, cont_addN e1, fun τ => ?_⟩
    refine (h3 τ).trans ?_
    exact Finset.sum_congr rfl fun i hi => by rw [e3 i (mem_idxs.1 hi)]

/-- The gradient of a tensor that gets none. -/
theorem rep_zeros {g : Graph POp} {x z s : Nat} {nx : Node POp} (hv : ¬ Z x → Evals (setting F N) g x (p x) ∧ Hinted (setting F N) g x (p x).shape) (hx : g.nodes[x]? = some nx)
    (hz : IsApp g z .zeros [s]) (hs : nx.shape = some s ∨ IsApp g s .shape [x]) : (arrCalc (setting F N) g0 Z p).Rep g x z 0 := by
  by_cases hZ : Z x
  · exact .inl ⟨hZ, rfl⟩
  obtain ⟨h1, h2⟩ := hv hZ
  have hev : Evals (setting F N) g s (encShape (p x).shape) := by
    rcases hs with hs | hs
    · exact h2 nx s hx hs
    · exact evals_run hs (.cons h1 .nil) rfl
  refine .inr ⟨hZ, ofFn (p x).shape (fun _ => 0), evals_run hz (.cons hev .nil) ?_, rfl, cont_ofFn _ _, fun τ => ?_⟩
  · show POp.run .zeros [encShape (p x).shape] = _
    simp only [POp.run, readShape_enc, bind, Except.bind]
  · simp [inner, ofFn]
    rfl

theorem good_sound {D : Nat → Prop} (h : Good (setting F N) g0 Z p) : GradSound (arrCalc (setting F N) g0 Z p) g0 D gradOps.addN gradOps.zeros gradOps.shapeOp gradOps.opGrad := by
  constructor
  · rintro g g' n t c hg hg' (h0 | ⟨hz, v, h1, h2⟩)
    · exact .inl h0
    · exact .inr ⟨hz, v, Evals.mono hg' (hg.2 h.closed) h1, h2⟩
  · intro g n s ts cs hg hl ha hts
    exact rep_addN hl ha hts
  · intro g x nx z s hg hx hz hs
    have hxl := (List.getElem?_eq_some_iff.1 hx).1
    exact rep_zeros (fun _ => ⟨Evals.mono hg h.closed (h.evals x hxl), Hinted.grows hg h.closed hxl (h.hint x hxl)⟩) (hg.1 _ _ hx) hz hs
  · intro n node t hn ht
    refine (lin_eq hn t).trans ?_
    refine jvp_zero _ _ _ fun x hx => ?_
    have : t x = 0 := by
      obtain ⟨i, hi, rfl⟩ := List.mem_map.1 hx
      rcases h.node n node hn with ⟨_, h2, _⟩ | ⟨xs, _, h2, _⟩
      · rw [h2] at hi; cases hi
      · rw [h2] at ht; exact ht i hi
    by_cases hz : Z x
    · exact mask_pos hz t
    · exact (mask_neg hz t).trans this
  · intro n node g g' gy gxs c _ hg hn hd hrep hgx
    have hn' := hg.1 _ _ hn
    simp only [gradOps, POp.opGrad, bind_ok, lift_ok] at hgx
    obtain ⟨nd', hnd, hgx⟩ := hgx
    rw [access_some.1 hnd] at hn'
    cases hn'
    have hnl := (List.getElem?_eq_some_iff.1 hn).1
    rcases h.node n node hn with ⟨e1 | e1, _⟩ | ⟨xs, e1, e2, e3, e4, e5⟩
    · rw [e1] at hgx; cases hgx
    · rw [e1] at hgx; cases hgx
    · have e0 : node.incoming = xs.map inp := by
        obtain ⟨nd', a, _, b, _⟩ := e1
        rw [hn] at a; cases a
        exact b
      have hlt : ∀ x ∈ xs, x < g0.nodes.length := fun x hx => h.closed n node hn (inp x) (by rw [e0]; exact List.mem_map_of_mem hx)
      rw [e0, ids_map] at hgx
      have hlen := gradOf_length hgx
      have hgr := (gradOf_builds (W := True) (.inr trivial) hgx).grows
      have zero : ∀ φ : (Nat → List Nat → ℝ) → ℝ, (∀ t, φ t = 0) → Contr (setting F N) g0 Z p g' (xs.map inp) gxs φ →
          (∀ t, c ((arrCalc (setting F N) g0 Z p).lin n t) = (0 : ℝ)) → Grows g g' ∧ ∃ φ, Contribs (arrCalc (setting F N) g0 Z p) g' node.bpInputs gxs φ ∧
            ∀ t, c ((arrCalc (setting F N) g0 Z p).lin n t) = φ t := by
        rintro φ h0 ⟨ψ, k1, k2⟩ hcz
        refine ⟨hgr, ψ, by rw [e2, e0]; exact k1, fun t => (hcz t).trans ?_⟩
        exact (h0 _).symm.trans (k2 t)
      rcases hrep with ⟨hz, rfl⟩ | ⟨hz, v, h1, h2, h3, h4⟩
      · refine zero (fun _ => 0) (fun _ => rfl) ?_ (fun _ => rfl)
        rcases h.still n node hn hz with ho | ho | ho | ho
        · rw [ho] at hgx
          match xs, hgx with
          | [_], hgx => cases hgx; exact contr_none _ _ rfl
        · rw [ho] at hgx
          match xs, hgx with
          | [_], hgx => cases hgx; exact contr_none _ _ rfl
        · rw [ho] at hgx
          match xs, hgx with
          | [_], hgx => cases hgx; exact contr_none _ _ rfl
        · exact contr_fixed xs gxs hlen fun x hx => ho (inp x) (by rw [e0]; exact List.mem_map_of_mem hx)
      · rcases e3 with e3 | e3
        · refine zero (fun _ => 0) (fun _ => rfl) (contr_fixed xs gxs hlen e3) fun t => ?_
          have : (arrCalc (setting F N) g0 Z p).lin n t = 0 := by
            refine (lin_eq hn t).trans ?_
            rw [e0, ids_map]
            exact jvp_zero _ _ _ fun x hx => mask_pos (e3 x hx) t
          rw [this]
          exact map_zero c
        · obtain ⟨f1, φ, f2, f3⟩ := op_grad (g0 := g0) (Z := Z) e3 ⟨e5, hg.2 h.closed, fun x hx => Evals.mono hg h.closed (h.evals x (hlt x hx)),
            fun x hx => Hinted.grows hg h.closed (hlt x hx) (h.hint x (hlt x hx)), isApp_mono hg e1, Evals.mono hg h.closed (h.evals n hnl), h1, h2, h3, e4⟩ hgx
          refine ⟨f1, φ, ?_, fun t => ?_⟩
          · rw [e2, e0]; exact f2
          · have : (arrCalc (setting F N) g0 Z p).lin n t = jvp p (mask Z t) node.op xs := by
              refine (lin_eq hn t).trans ?_
              rw [e0, ids_map]
            rw [this]
            exact (h4 _).trans (f3 t)

theorem good_local (h : Good (setting F N) g0 Z p) : LocalLin (arrCalc (setting F N) g0 Z p) g0 := by
  intro n node t t' hn ht
  refine (lin_eq hn t).trans (Eq.trans ?_ (lin_eq hn t').symm)
  refine jvp_congr _ _ _ _ fun x hx => ?_
  obtain ⟨i, hi, rfl⟩ := List.mem_map.1 hx
  have : t i.id = t' i.id := by
    rcases h.node n node hn with ⟨_, h2, _⟩ | ⟨xs, _, h2, _⟩
    · rw [h2] at hi; cases hi
    · rw [h2] at ht; exact ht i hi
  by_cases hz : Z i.id
  · exact (mask_pos hz t).trans (mask_pos hz t').symm
  · exact (mask_neg hz t).trans (this.trans (mask_neg hz t').symm)

/-- What is known of the graph `g` of a program and the values `p` of its tensors. -/
structure ProgGraph (g : Graph POp) (X : List Nat) (F : List (Feed (Arr ℝ))) (N : List (Arr ℝ)) (p : Nat → Arr ℝ) : Prop where
  wf : WF g
  closed : InputsExist g
  bpDag : BpDag g
  older : ∀ (k : Nat) (n : Node POp), g.nodes[k]? = some n → ∀ i ∈ n.incoming, i.id < k
  evals : ∀ n, n < g.nodes.length → Evals (setting F N) g n (p n)
  hint : ∀ n, n < g.nodes.length → Hinted (setting F N) g n (p n).shape
  node : ∀ (k : Nat) (n : Node POp), g.nodes[k]? = some n → NodeIs g X p k n
  leaf : ∀ (k : Nat) (n : Node POp), g.nodes[k]? = some n → n.placeholderName ≠ none ∨ n.variableId ≠ none → n.differentiable = true ∧ n.incoming = []
  leafBp : ∀ (k : Nat) (n : Node POp), g.nodes[k]? = some n → n.incoming = [] → n.bpInputs = []

theorem progGraph_held {l : List Stmt} {g : Graph POp} {ts : List Nat} (hl : runProgram l = .ok (g, ts))
    (hv : ∀ n, n < g.nodes.length → Evals (setting F N) g n (p n)) (hok : ∀ s ∈ l, StmtOk (Still g X) (Flat g p) p s ∨ ∃ x, s = .stopGradient x) : ProgGraph g X F N p := by
  obtain ⟨hg, hi, _⟩ := constructAll_ok hinv_empty (fun _ h => h) hl
  have hp : PInv hintOps (l.map Stmt.ctor) g := PInv.constructAll pinv_empty (fun _ h => h) hl
  have hw := hi.reach.wf
  have hbp : ∀ (k : Nat) (n : Node POp), g.nodes[k]? = some n → n.bpInputs = n.incoming := by
    intro k n hn
    have : n.backpropInputs = none := by
      cases hp.made k n hn with
      | var _ _ _ h => exact h
      | placeholder _ _ _ h => exact h
      | const _ _ h => exact h.2.2
      | shape _ _ h _ => exact h.2.2
      | infer _ _ h => exact h.2.2
      | ctor _ _ _ _ h => exact h.2.2
    simp [Node.bpInputs, this]
  have hcl : InputsExist g := fun k n hn i hii => by
    obtain ⟨m, hm, _⟩ := hp.ranked k n hn i hii
    exact (List.getElem?_eq_some_iff.1 hm).1
  refine ⟨hw, hcl, ?_, hi.older, hv, ?_, fun k n hn => node_is hi hp hok hn, ?_, ?_⟩
  · intro k n hn
    rw [hbp k n hn]
    exact ⟨fun h => h, hp.ranked k n hn⟩
  · intro n hn nd t hnd ht
    have hm := hint_sound hi shapeOps (fun c hc => by
      obtain ⟨st, hst, rfl⟩ := List.mem_map.1 hc
      exact ctor_ok hv (hok st hst)) n (p n) (hv n hn).1 t ⟨nd, hnd, .inl ht⟩
    have htl : t < g.nodes.length := by
      cases hm with
      | placeholder h _ _ => exact (List.getElem?_eq_some_iff.1 h).1
      | variable_ h _ _ => exact (List.getElem?_eq_some_iff.1 h).1
      | result h _ => cases h with
        | run h _ _ _ _ => exact (List.getElem?_eq_some_iff.1 h).1
    exact ⟨hm, (hv t htl).2⟩
  · intro k n hn hlf
    refine ⟨hp.fresh k n hn hlf, ?_⟩
    cases hp.made k n hn with
    | var _ h _ _ => exact h
    | placeholder _ h _ _ => exact h
    | const _ _ h => rcases hlf with h' | h'; exact absurd h.1 h'; exact absurd h.2.1 h'
    | shape _ _ h => rcases hlf with h' | h'; exact absurd h.1 h'; exact absurd h.2.1 h'
    | infer _ _ h => rcases hlf with h' | h'; exact absurd h.1 h'; exact absurd h.2.1 h'
    | ctor _ _ _ _ h => rcases hlf with h' | h'; exact absurd h.1 h'; exact absurd h.2.1 h'
  · intro k n hn h
    rw [hbp k n hn, h]

/-- The values in the graph with the `sum_all` tensors. -/
noncomputable def withSums (g : Graph POp) (p : Nat → Arr ℝ) (g0 : Graph POp) (n : Nat) : Arr ℝ :=
  if n < g.nodes.length then p n
  else match g0.nodes[n]? with
    | some nd => Nd.sumAll (p ((nd.incoming.map Incoming.id).headD 0))
    | none => p n

theorem summed_node {g : Graph POp} {ys sys : List Nat} (hs : Summed gradOps.sumAll g ys g0 sys) {n : Nat} {nd : Node POp} (hn : g0.nodes[n]? = some nd)
    (hlt : ¬ n < g.nodes.length) : ∃ y ∈ ys, IsApp g0 n .sumAll [y] ∧ nd.incoming = [inp y] ∧ nd.op = .sumAll ∧ nd.bpInputs = nd.incoming ∧ nd.shape = none := by
  have hmem : n ∈ sys := (hs.fresh n).2 ⟨by omega, (List.getElem?_eq_some_iff.1 hn).1⟩
  have key : ∀ {l l' : List Nat}, List.Forall₂ (fun y s => ∃ n, g0.nodes[s]? = some n ∧ n.op = gradOps.sumAll ∧ n.incoming = [{ id := y }] ∧
      n.differentiable = true ∧ n.backpropInputs = none ∧ n.variableId = none ∧ n.placeholderName = none ∧ n.shape = none) l l' →
      n ∈ l' → ∃ y ∈ l, IsApp g0 n .sumAll [y] ∧ nd.incoming = [inp y] ∧ nd.op = .sumAll ∧ nd.bpInputs = nd.incoming ∧ nd.shape = none := by
    intro l l' h
    induction h with
    | nil => intro h; cases h
    | @cons y s _ _ h1 _ ih =>
      intro h
      rcases List.mem_cons.1 h with rfl | h
      · obtain ⟨n', a, b, c, e, f1, f2, f3, f4⟩ := h1
        rw [hn] at a; cases a
        exact ⟨y, by simp, ⟨nd, hn, b, c, f3, f2⟩, c, b, by simp [Node.bpInputs, f1], f4⟩
      · obtain ⟨y', a, b⟩ := ih h
        exact ⟨y', by simp [a], b⟩
  exact key hs.apps hmem

theorem summed_good {g : Graph POp} {ys sys : List Nat} (hP : ProgGraph g X F N p) (hs : Summed gradOps.sumAll g ys g0 sys)
    (hys : ∀ y ∈ ys, y < g.nodes.length) : Good (setting F N) g0 (Still g X) (withSums g p g0) := by
  have hnode : ∀ n, n < g.nodes.length → g0.nodes[n]? = g.nodes[n]? := by
    intro n hn
    rw [List.getElem?_eq_getElem hn]
    exact hs.grows.1 _ _ (List.getElem?_eq_getElem hn)
  have hlow : ∀ n, n < g.nodes.length → withSums g p g0 n = p n := fun n hn => if_pos hn
  have hhigh : ∀ n nd, g0.nodes[n]? = some nd → ¬ n < g.nodes.length → ∀ y, nd.incoming = [inp y] → withSums g p g0 n = Nd.sumAll (p y) := by
    intro n nd hn hlt y hy
    simp [withSums, hlt, hn, hy]
  refine ⟨hs.grows.2 hP.closed, ?_, ?_, ?_, ?_⟩
  · intro n hn
    by_cases hlt : n < g.nodes.length
    · rw [hlow n hlt]; exact Evals.mono hs.grows hP.closed (hP.evals n hlt)
    · obtain ⟨y, hy, ha, hin, _⟩ := summed_node hs (List.getElem?_eq_getElem hn) hlt
      rw [hhigh n _ (List.getElem?_eq_getElem hn) hlt y hin]
      exact evals_run ha (.cons (Evals.mono hs.grows hP.closed (hP.evals y (hys y hy))) .nil) rfl
  · intro n hn
    by_cases hlt : n < g.nodes.length
    · rw [hlow n hlt]; exact Hinted.grows hs.grows hP.closed hlt (hP.hint n hlt)
    · intro nd t hnd ht
      obtain ⟨y, hy, ha, hin, _, _, h⟩ := summed_node hs hnd hlt
      rw [h] at ht; cases ht
  · intro k nd hk
    by_cases hlt : k < g.nodes.length
    · have hk' := hk
      rw [hnode k hlt] at hk'
      cases hP.node k nd hk' with
      | leaf h1 h2 _ => exact .inl ⟨h1, h2, hP.leafBp k nd hk' h2⟩
      | @app xs ha hb hok hfix _ =>
        have ha' := ha
        obtain ⟨nd', a, _, b, _⟩ := ha'
        rw [hk'] at a; cases a
        have hxl : ∀ x ∈ xs, x < g.nodes.length := fun x hx => hP.closed k nd hk' (inp x) (by rw [b]; exact List.mem_map_of_mem hx)
        have he : xs.map (withSums g p g0) = xs.map p := List.map_congr_left fun x hx => hlow x (hxl x hx)
        refine .inr ⟨xs, isApp_mono hs.grows ha, by simp [Node.bpInputs, hb], hok.imp id (opOk_congr fun x hx => (hlow x (hxl x hx)).symm), hfix, ?_⟩
        rw [he, hlow k hlt]
        exact run_of_evals hP.wf ha (fun x hx => hP.evals x (hxl x hx)) (hP.evals k hlt)
    · obtain ⟨y, hy, ha, hin, ho, hbp, _⟩ := summed_node hs hk hlt
      refine .inr ⟨[y], by rw [ho]; exact ha, hbp, .inr (by rw [ho]; trivial), by rw [ho]; simp [fixedIn], ?_⟩
      rw [hhigh k nd hk hlt y hin, List.map_cons, List.map_nil, hlow y (hys y hy), ho]
      rfl
  · intro k nd hk hz
    have key : ∀ op xs, IsApp g k op xs → nd.op = op ∧ nd.incoming = xs.map inp := by
      rintro op xs ha
      obtain ⟨nd', a, b, c, _⟩ := isApp_mono hs.grows ha
      rw [hk] at a; cases a
      exact ⟨b, c⟩
    cases hz with
    | leaf hl _ =>
      obtain ⟨nd', hn', hl⟩ := hl
      rw [hs.grows.1 _ _ hn'] at hk; cases hk
      exact .inr (.inr (.inr (by rw [(hP.leaf k _ hn' hl).2]; simp)))
    | shape h => exact .inl (key _ _ h).1
    | size h => exact .inr (.inl (key _ _ h).1)
    | stop h => exact .inr (.inr (.inl (key _ _ h).1))
    | app h hzs =>
      refine .inr (.inr (.inr fun i hi => ?_))
      rw [(key _ _ h).2] at hi
      obtain ⟨z, hz, rfl⟩ := List.mem_map.1 hi
      exact hzs z hz

end

theorem forall₂_choose {α β : Type} {P : Nat → β → α → Prop} (a : α) : ∀ {xs : List Nat} {ts : List β}, xs.Nodup → List.Forall₂ (fun x t => ∃ v, P x t v) xs ts →
    ∃ G : Nat → α, List.Forall₂ (fun x t => P x t (G x)) xs ts := by
  intro xs ts hn h
  induction h with
  | nil => exact ⟨fun _ => a, .nil⟩
  | @cons x t xs ts h1 h2 ih =>
    obtain ⟨v, hv⟩ := h1
    obtain ⟨hx, hn⟩ := List.nodup_cons.1 hn
    obtain ⟨G, hG⟩ := ih hn
    refine ⟨Function.update G x v, .cons (by simpa using hv) ?_⟩
    refine forall₂_of_mem hG fun y s hy h => ?_
    rw [Function.update_of_ne (by rintro rfl; exact hx hy)]
    exact h

/-- The sum of the elements of a moving array. -/
theorem total_deriv {Y : ℝ → Arr ℝ} {v : Arr ℝ} {τ : List Nat → ℝ} (h : Moves Y v τ) : HasDerivAt (fun u => total (Y u)) (∑ i ∈ idxs v.shape, τ i) 0 := by
  rw [show (fun u => total (Y u)) = fun u => ∑ i ∈ idxs v.shape, (Y u).get i from funext fun u => by rw [total, h.shape u]]
  exact hasDerivAt_sum_idxs fun i hi => h.deriv i (mem_idxs.1 hi)

theorem app_unique {g : Graph POp} {t : Nat} {op op' : POp} {xs xs' : List Nat} (h : IsApp g t op xs) (h' : IsApp g t op' xs') : op = op' ∧ xs = xs' := by
  obtain ⟨n, a, b, c, _⟩ := h
  obtain ⟨n', a', b', c', _⟩ := h'
  rw [a] at a'; cases a'
  refine ⟨b.symm.trans b', ?_⟩
  have := congrArg (List.map Incoming.id) (c.symm.trans c')
  simpa [Function.comp_def] using this

theorem not_leaf {g : Graph POp} {t : Nat} {op : POp} {xs : List Nat} (ha : IsApp g t op xs) : ¬ IsLeaf g t := by
  rintro ⟨nd', a, b⟩
  obtain ⟨nd'', a', _, _, c, d⟩ := ha
  rw [a] at a'; cases a'
  rcases b with b | b
  · exact b c
  · exact b d

/-- The variables and placeholders with respect to which one differentiates do move. -/
theorem not_still {g : Graph POp} {X : List Nat} {x : Nat} (hl : IsLeaf g x) (hx : x ∈ X) : ¬ Still g X x := by
  intro h
  cases h with
  | leaf _ h => exact h hx
  | shape h => exact not_leaf h hl
  | size h => exact not_leaf h hl
  | stop h => exact not_leaf h hl
  | app h _ => exact not_leaf h hl

theorem still_lt {g : Graph POp} {X : List Nat} {x : Nat} (h : Still g X x) : x < g.nodes.length := by
  have key : ∀ op l, IsApp g x op l → x < g.nodes.length := fun op l ⟨n, hn, _⟩ => (List.getElem?_eq_some_iff.1 hn).1
  cases h with
  | leaf h _ => obtain ⟨n, hn, _⟩ := h; exact (List.getElem?_eq_some_iff.1 hn).1
  | shape h => exact key _ _ h
  | size h => exact key _ _ h
  | stop h => exact key _ _ h
  | app h _ => exact key _ _ h

theorem fixedIn_mem {op : POp} {xs : List Nat} {a : Nat} (h : a ∈ fixedIn op xs) : a ∈ xs := by
  unfold fixedIn at h
  split at h
  all_goals first
    | exact h
    | (simp at h; done)
    | (simp at h; simp [h])

/-- In `h` the tensors are those of `g`, except that results of `stop_gradient` that would move have the values `p`. -/
def HeldIn (g h : Graph POp) (X : List Nat) (p : Nat → Arr ℝ) (F : ℝ → List (Feed (Arr ℝ))) (N : ℝ → List (Arr ℝ)) : Prop :=
  ∀ (k : Nat) (n : Node POp), g.nodes[k]? = some n → (h.nodes[k]? = some n ∧ (n.op = .stop → ∀ i ∈ n.incoming, Still g X i.id)) ∨
    n.op = .stop ∧ ∀ u, Evals (setting (F u) (N u)) h k (p k)

/-- `stop_gradient` is applied only to tensors that do not move. -/
def StopsStill (g : Graph POp) (X : List Nat) : Prop := ∀ (k : Nat) (n : Node POp), g.nodes[k]? = some n → n.op = .stop → ∀ i ∈ n.incoming, Still g X i.id

theorem held_self {g : Graph POp} {X : List Nat} (h : StopsStill g X) {p : Nat → Arr ℝ} {F : ℝ → List (Feed (Arr ℝ))} {N : ℝ → List (Arr ℝ)} : HeldIn g g X p F N :=
  fun k n hn => .inl ⟨hn, h k n hn⟩

theorem jvp_stop {p : Nat → Arr ℝ} {t : Nat → List Nat → ℝ} {xs : List Nat} : jvp p t .stop xs = 0 := rfl

/-- When leaves move, all tensors move, with the tangents as velocities. -/
theorem values_move {g : Graph POp} {X : List Nat} {F0 : List (Feed (Arr ℝ))} {N0 : List (Arr ℝ)} {p : Nat → Arr ℝ} (hP : ProgGraph g X F0 N0 p)
    {F : ℝ → List (Feed (Arr ℝ))} {N : ℝ → List (Arr ℝ)} {t : Nat → List Nat → ℝ} {h : Graph POp} (hh : HeldIn g h X p F N)
    (hleaf : ∀ n, IsLeaf g n → ∃ V, (∀ u, Evals (setting (F u) (N u)) h n (V u)) ∧ Moves V (p n) (t n) ∧ (n ∉ X → ∀ u, V u = p n))
    (hop : ∀ (n : Nat) (nd : Node POp), g.nodes[n]? = some nd → ¬ IsLeaf g n → ∀ i, t n i = jvp p t nd.op (nd.incoming.map Incoming.id) i)
    (hz : ∀ n, Still g X n → t n = 0) :
    ∀ n, n < g.nodes.length → ∃ Y : ℝ → Arr ℝ, (∀ u, Evals (setting (F u) (N u)) h n (Y u)) ∧ Moves Y (p n) (t n) ∧ (Still g X n → ∀ u, Y u = p n) := by
  intro n
  induction n using Nat.strong_induction_on with
  | _ n ih =>
    intro hn
    have hnd := List.getElem?_eq_getElem hn
    generalize g.nodes[n] = nd at hnd
    cases hP.node n nd hnd with
    | leaf h1 h2 h3 =>
      have hl : IsLeaf g n := ⟨nd, hnd, h3⟩
      obtain ⟨V, a, b, c⟩ := hleaf n hl
      exact ⟨V, a, b, fun hr => c fun hx => not_still hl hx hr⟩
    | @app xs ha hb hok hrig hdf =>
      have hin : nd.incoming = xs.map inp := by
        obtain ⟨nd', a, _, b, _⟩ := ha
        rw [hnd] at a; cases a
        exact b
      have hxs : ∀ x ∈ xs, x < n := fun x hx => hP.older n nd hnd (inp x) (by rw [hin]; exact List.mem_map_of_mem hx)
      have : ∀ m, ∃ Y : ℝ → Arr ℝ, m < n → (∀ u, Evals (setting (F u) (N u)) h m (Y u)) ∧ Moves Y (p m) (t m) ∧ (Still g X m → ∀ u, Y u = p m) := by
        intro m
        by_cases hm : m < n
        · obtain ⟨Y, h⟩ := ih m hm (by omega)
          exact ⟨Y, fun _ => h⟩
        · exact ⟨fun _ => p m, fun h => absurd h hm⟩
      choose Y hY using this
      have hrun := run_of_evals hP.wf ha (fun x hx => hP.evals x (by have := hxs x hx; omega)) (hP.evals n hn)
      have htn : t n = jvp p t nd.op xs := by
        funext i
        rw [hop n nd hnd (not_leaf ha) i, hin, ids_map]
      rcases hh n nd hnd with ⟨hnd', hns⟩ | ⟨ho, hp⟩
      swap
      · refine ⟨fun _ => p n, hp, ?_, fun _ _ => rfl⟩
        rw [htn, ho, jvp_stop]
        exact moves_const (p n)
      have ha' : IsApp h n nd.op xs := by
        obtain ⟨nd', a, b, c⟩ := ha
        rw [hnd] at a; cases a
        exact ⟨nd, hnd', b, c⟩
      have hev : ∀ (u : ℝ) (w : Arr ℝ), nd.op.run (xs.map (fun x => Y x u)) = .ok w → Evals (setting (F u) (N u)) h n w := by
        intro u w hw
        refine evals_run ha' ?_ hw
        have : ∀ l : List Nat, (∀ x ∈ l, x ∈ xs) → List.Forall₂ (Evals (setting (F u) (N u)) h) l (l.map (fun x => Y x u)) := by
          intro l
          induction l with
          | nil => intro _; exact .nil
          | cons a l ih => intro h; exact .cons ((hY a (hxs a (h a (by simp)))).1 u) (ih fun x hx => h x (by simp [hx]))
        exact this xs fun _ h => h
      have hsame : (∀ x ∈ xs, Still g X x) → ∀ u, nd.op.run (xs.map (fun x => Y x u)) = .ok (p n) := by
        intro h u
        rw [← hrun]
        congr 1
        exact List.map_congr_left fun x hx => (hY x (hxs x hx)).2.2 (h x hx) u
      have hok' : (∀ x ∈ xs, Still g X x) ∨ nd.op ≠ .stop ∧ OpOk (Flat g p) p nd.op xs := by
        by_cases ho : nd.op = .stop
        · exact .inl fun x hx => hns ho (inp x) (by rw [hin]; exact List.mem_map_of_mem hx)
        · exact hok.imp id fun h => ⟨ho, h⟩
      rcases hok' with hst | ⟨hstop, hok⟩
      · refine ⟨fun _ => p n, fun u => hev u _ (hsame hst u), ?_, fun _ _ => rfl⟩
        rw [htn, jvp_zero _ _ _ fun x hx => hz x (hst x hx)]
        exact moves_const (p n)
      · obtain ⟨Z, z1, z2⟩ := vary hstop hok hrun (Y := Y) (t := t) (fun x hx => (hY x (hxs x hx)).2.1)
          (fun a ha' u => (hY a (hxs a (fixedIn_mem ha'))).2.2 (hrig a ha') u)
          (fun x hx i _ hf => by
            obtain ⟨op, y, ha', hd⟩ := hf
            have hx' := hxs x hx
            obtain ⟨nd', a, b, c, _⟩ := id ha'
            rw [hop x nd' a (not_leaf ha') i, b, c, ids_map]
            simp only [jvp, hd.deriv, zero_mul])
        refine ⟨Z, fun u => hev u _ (z1 u), by rw [htn]; exact z2, fun hr u => ?_⟩
        have hzu := z1 u
        cases hr with
        | leaf h _ => exact absurd h (not_leaf ha)
        | @shape _ x h =>
          obtain ⟨e1, e2⟩ := app_unique ha h
          subst e2
          rw [e1] at hzu hrun
          have e3 : encShape (Y x u).shape = Z u := Except.ok.inj hzu
          have e4 : encShape (p x).shape = p n := Except.ok.inj hrun
          rw [← e3, ← e4, (hY x (hxs x (by simp))).2.1.shape u]
        | @size _ x h =>
          obtain ⟨e1, e2⟩ := app_unique ha h
          subst e2
          rw [e1] at hzu hrun
          have e3 : ofFn [] (fun _ => ((Nd.size (Y x u).shape : Nat) : ℝ)) = Z u := Except.ok.inj hzu
          have e4 : ofFn [] (fun _ => ((Nd.size (p x).shape : Nat) : ℝ)) = p n := Except.ok.inj hrun
          rw [← e3, ← e4, (hY x (hxs x (by simp))).2.1.shape u]
        | stop h => exact absurd (app_unique ha h).1 hstop
        | app h hzs =>
          obtain ⟨e1, e2⟩ := app_unique ha h
          subst e2
          rw [hsame hzs u] at hzu
          exact (Except.ok.inj hzu).symm

end Verif.Prog
