import Verif.Lemmas.GradApi
import Verif.Lemmas.ProgramEval

/-! `grad` only builds ordinary tensors with read-only inputs. -/

namespace Verif.Gradient
open Verif Verif.Graph Verif.Spec Verif.Hint
variable {Op : Type}

/-- `g'` is `g` with ordinary tensors added; unless `W`, none of them has back-propagation inputs of its own. -/
inductive BuildsW (W : Prop) (g : Graph Op) : Graph Op → Prop where
  | refl : BuildsW W g g
  | step {g1 g2 : Graph Op} {b : Builder} {op : Op} {t : Nat} : BuildsW W g g1 → g1.build b op = .ok (g2, t) → b.variableId = none → b.placeholderName = none →
      (∀ i ∈ b.inNodes, i.allowMut = false) → (b.backpropInputs = none ∨ W) → BuildsW W g g2

/-- `g'` is `g` with ordinary tensors added. -/
abbrev Builds (g g' : Graph Op) : Prop := BuildsW True g g'

variable {W : Prop}

theorem BuildsW.trans {g g1 g2 : Graph Op} (h : BuildsW W g g1) (h' : BuildsW W g1 g2) : BuildsW W g g2 := by
  induction h' with
  | refl => exact h
  | step _ a b c d e ih => exact .step ih a b c d e

theorem BuildsW.one {g g' : Graph Op} {b : Builder} {op : Op} {t : Nat} (h : g.build b op = .ok (g', t)) (h1 : b.variableId = none)
    (h2 : b.placeholderName = none) (h3 : ∀ i ∈ b.inNodes, i.allowMut = false) (h4 : b.backpropInputs = none ∨ W := by exact .inl rfl) : BuildsW W g g' :=
  .step .refl h h1 h2 h3 h4

theorem BuildsW.grows {g g' : Graph Op} (h : BuildsW W g g') : Grows g g' := by
  induction h with
  | refl => exact grows_refl _
  | step _ h _ _ _ _ ih => exact ih.trans (build_grows h)

theorem BuildsW.reach {P : Ops Op} {g g' : Graph Op} (h : BuildsW W g g') (hr : Props.Reachable P g) : Props.Reachable P g' := by
  induction h with
  | refl => exact hr
  | step _ a b c _ _ ih => exact reach_build ih a b c

/-- Without back-propagation inputs of their own the new tensors keep the graph a dag. -/
theorem BuildsW.bpDag {g g' : Graph Op} (h : BuildsW False g g') (hb : BpDag g) : BpDag g' := by
  induction h with
  | refl => exact hb
  | step _ a _ _ _ e ih => exact build_bpDag (e.resolve_right id) ih a

/-- Inputs are older tensors and read-only. -/
def OldRead (g : Graph Op) : Prop := ∀ (k : Nat) (n : Node Op), g.nodes[k]? = some n → ∀ i ∈ n.incoming, i.id < k ∧ i.allowMut = false

theorem oldRead_build {g g' : Graph Op} {b : Builder} {op : Op} {t : Nat} (ho : OldRead g) (h : g.build b op = .ok (g', t))
    (h3 : ∀ i ∈ b.inNodes, i.allowMut = false) : OldRead g' := by
  obtain ⟨_, _, r, hr, e⟩ := build_new h
  intro k n hk i hi
  rw [e] at hk
  rcases Nat.lt_trichotomy k g.nodes.length with h1 | h1 | h1
  · rw [List.getElem?_append_left h1] at hk
    exact ho k n hk i hi
  · rw [h1, List.getElem?_append_right (Nat.le_refl _)] at hk
    simp at hk
    subst hk
    obtain ⟨m, hm, _⟩ := buildRank_lt hr i hi
    have := (List.getElem?_eq_some_iff.1 hm).1
    exact ⟨by omega, h3 i hi⟩
  · rw [List.getElem?_eq_none (by simp; omega)] at hk; cases hk

theorem BuildsW.oldRead {g g' : Graph Op} (h : BuildsW W g g') (ho : OldRead g) : OldRead g' := by
  induction h with
  | refl => exact ho
  | step _ a _ _ c _ ih => exact oldRead_build ih a c

theorem OldRead.acyclic {g : Graph Op} (h : OldRead g) : Acyclic g := by
  have key : ∀ a b, DependsOn g a b → b < a := by
    intro a b hab
    induction hab with
    | single h' =>
      obtain ⟨n, hn, i, hi, rfl⟩ := h'
      exact (h _ n hn i hi).1
    | tail _ h' ih =>
      obtain ⟨n, hn, i, hi, rfl⟩ := h'
      exact lt_trans (h _ n hn i hi).1 ih
  intro a ha
  exact lt_irrefl _ (key a a ha)

variable {O : GradOps Op}

theorem mem_inputs {l : List Nat} : ∀ i ∈ l.map (fun i => ({ id := i } : Incoming)), i.allowMut = false := by
  intro i hi
  obtain ⟨_, _, rfl⟩ := List.mem_map.1 hi
  rfl

theorem shapeTensor_builds {g g' : Graph Op} {x s : Nat} (h : shapeTensor O g x = .ok (g', s)) : BuildsW W g g' := by
  simp only [shapeTensor, bind_ok] at h
  obtain ⟨n, _, h⟩ := h
  cases hs : n.shape with
  | some s' =>
    simp only [hs, Except.ok.injEq, Prod.mk.injEq] at h
    rw [← h.1]; exact .refl
  | none =>
    simp only [hs] at h
    exact .one h rfl rfl (mem_inputs (l := [x]))

theorem addN_builds {g g' : Graph Op} {x s : Nat} {xs : List Nat} (h : addN O g x xs = .ok (g', s)) : BuildsW W g g' := by
  cases xs with
  | nil => cases h; exact .refl
  | cons y ys =>
    simp only [addN, bind_ok] at h
    obtain ⟨⟨g1, t⟩, h1, h2⟩ := h
    exact (shapeTensor_builds h1).trans (.one h2 rfl rfl (mem_inputs (l := x :: y :: ys)))

theorem zeros_builds {g g' : Graph Op} {x s : Nat} (h : zerosLike O g x = .ok (g', s)) : BuildsW W g g' := by
  simp only [zerosLike, bind_ok] at h
  obtain ⟨⟨g1, t⟩, h1, h2⟩ := h
  exact (shapeTensor_builds h1).trans (.one h2 rfl rfl (mem_inputs (l := [t])))

theorem gradient_builds {g g' : Graph Op} {m m' : GMap} {k t : Nat} (h : gradient O g m k = .ok (g', m', t)) : BuildsW W g g' := by
  unfold gradient at h
  split at h
  · cases h
  · split at h
    · cases h
    · cases h; exact .refl
    · simp only [bind_ok, lift_ok] at h
      obtain ⟨⟨g1, s⟩, h1, h2⟩ := h
      cases h2
      exact addN_builds h1

theorem bpLoop_builds (hO : ∀ op g y gy g' gxs, O.opGrad op g y gy = .ok (g', gxs) → BuildsW W g g') {pick : Graph Op → List Nat → Nat} :
    ∀ {fuel : Nat} {s s' : BpState Op}, bpLoop O pick fuel s = some (.ok s') → BuildsW W s.g s'.g := by
  intro fuel
  induction fuel with
  | zero => intro s s' h; cases h
  | succ fuel ih =>
    intro s s' h
    unfold bpLoop at h
    split at h
    · cases h; exact .refl
    · split at h
      · cases h
      · rename_i s1 hv
        simp only [bpVisit, bind_ok, lift_ok] at hv
        obtain ⟨⟨g1, m1, gy⟩, h1, n, _, ⟨g2, gxs⟩, h2, n2, _, ⟨m2, heap2⟩, _, h3⟩ := hv
        have := ih h
        rw [← Except.ok.inj h3] at this
        exact ((gradient_builds h1).trans (hO _ _ _ _ _ _ h2)).trans this

theorem extractAll_builds : ∀ {xs : List Nat} {g g' : Graph Op} {m : GMap} {ts : List Nat}, extractAll O xs g m = .ok (g', ts) → BuildsW W g g' := by
  intro xs
  induction xs with
  | nil => intro g g' m ts h; cases h; exact .refl
  | cons x xs ih =>
    intro g g' m ts h
    simp only [extractAll, bind_ok] at h
    obtain ⟨⟨g1, m1, t⟩, h1, ⟨g2, ts2⟩, h2, h3⟩ := h
    rw [← (Prod.mk.inj (Except.ok.inj h3)).1]
    refine BuildsW.trans ?_ (ih h2)
    unfold extractOne at h1
    split at h1
    · split at h1
      · exact gradient_builds h1
      · simp only [bind_ok, lift_ok] at h1
        obtain ⟨⟨ga, z⟩, h4, h5⟩ := h1
        cases h5
        exact zeros_builds h4
    · simp only [bind_ok, lift_ok] at h1
      obtain ⟨⟨ga, z⟩, h4, h5⟩ := h1
      cases h5
      exact zeros_builds h4

theorem sumAlls_builds : ∀ {ys : List Nat} {g g' : Graph Op} {ts : List Nat}, sumAlls O g ys = .ok (g', ts) → BuildsW W g g' := by
  intro ys
  induction ys with
  | nil => intro g g' ts h; cases h; exact .refl
  | cons y ys ih =>
    intro g g' ts h
    simp only [sumAlls, bind_ok] at h
    obtain ⟨⟨g1, t⟩, h1, ⟨g2, ts2⟩, h2, h3⟩ := h
    rw [← (Prod.mk.inj (Except.ok.inj h3)).1]
    exact (BuildsW.one h1 rfl rfl (mem_inputs (l := [y]))).trans (ih h2)

theorem scalarOne_builds {g g' : Graph Op} {t : Nat} (h : scalarOne O g = .ok (g', t)) : BuildsW W g g' := by
  simp only [scalarOne, bind_ok] at h
  obtain ⟨⟨g1, s⟩, h1, ⟨g2, c⟩, h2, h3⟩ := h
  exact ((BuildsW.one h1 rfl rfl (by simp)).trans (.one h2 rfl rfl (by simp))).trans (.one h3 rfl rfl (by simp))

/-- `grad` only builds ordinary tensors if `Op::grad` does. -/
theorem grad_builds (hO : ∀ op g y gy g' gxs, O.opGrad op g y gy = .ok (g', gxs) → BuildsW W g g') {pick : Graph Op → List Nat → Nat} {fuel : Nat}
    {g : Graph Op} {ys xs : List Nat} {r : GradResult Op} (h : grad O pick fuel g ys xs = some (.ok r)) : BuildsW W g r.g := by
  obtain ⟨g0, sys, g1, one, m, m', s, h0, _, h2, _, h4, h5, _⟩ := grad_ok h
  exact (((sumAlls_builds h0).trans (scalarOne_builds h2)).trans (bpLoop_builds hO h4)).trans (extractAll_builds h5)

end Verif.Gradient

namespace Verif.Prog
open Verif Verif.Graph Verif.Nd Verif.Hint Verif.Gradient Verif.Spec Verif.Eval
variable {W : Prop}

theorem shape_builds {g g' : Graph POp} {x s : Nat} (h : mkShape g x = .ok (g', s)) : BuildsW W g g' := by
  have h := lift_ok.1 h
  simp only [Hint.shape, bind_ok] at h
  obtain ⟨n, _, h⟩ := h
  cases hs : n.shape with
  | some s' =>
    simp only [hs, Except.ok.injEq, Prod.mk.injEq] at h
    rw [← h.1]; exact .refl
  | none =>
    simp only [hs] at h
    exact .one h rfl rfl (mem_inputs (l := [x]))

theorem mk_builds' {g g' : Graph POp} {c : Ctor POp} {t : Nat} {op : POp} {is : List Incoming} (h : mk g c = .ok (g', t)) (hc : ctorApp c = some (op, is))
    (hr : ∀ i ∈ is, i.allowMut = false) : BuildsW W g g' := by
  have h := lift_ok.1 h
  have sh : ∀ {g g' : Graph POp} {x s : Nat}, Hint.shape hintOps g x = .ok (g', s) → BuildsW W g g' := fun h => shape_builds (lift_ok.2 h)
  cases c with
  | plain op' ins =>
    simp only [ctorApp, Option.some.injEq, Prod.mk.injEq] at hc
    obtain ⟨rfl, rfl⟩ := hc
    exact .one h rfl rfl hr
  | like op' ins x =>
    simp only [ctorApp, Option.some.injEq, Prod.mk.injEq] at hc
    obtain ⟨rfl, rfl⟩ := hc
    simp only [construct, bind_ok] at h
    obtain ⟨⟨g1, s⟩, h1, h2⟩ := h
    exact (sh h1).trans (.one h2 rfl rfl hr)
  | binary op' a b =>
    simp only [construct, bind_ok] at h
    obtain ⟨⟨g1, sa⟩, h1, ⟨g2, sb⟩, h2, ⟨g3, s⟩, h3, h4⟩ := h
    exact (((sh h1).trans (sh h2)).trans (.one h3 rfl rfl (mem_inputs (l := [sa, sb])))).trans (.one h4 rfl rfl (mem_inputs (l := [a, b])))
  | sized op' ins x =>
    simp only [ctorApp, Option.some.injEq, Prod.mk.injEq] at hc
    obtain ⟨rfl, rfl⟩ := hc
    exact .one h rfl rfl hr
  | scalar op' =>
    simp only [construct, bind_ok] at h
    obtain ⟨⟨g1, s⟩, h1, ⟨g2, s2⟩, h2, h3⟩ := h
    exact ((BuildsW.one h1 rfl rfl (by simp)).trans (.one h2 rfl rfl (by simp))).trans (.one h3 rfl rfl (by simp))
  | const _ op' =>
    simp only [construct, bind_ok] at h
    obtain ⟨⟨g1, s⟩, h1, h2⟩ := h
    exact (BuildsW.one h1 rfl rfl (by simp)).trans (.one h2 rfl rfl (by simp))
  | var _ => cases hc
  | placeholder _ _ => cases hc
  | shapeOf _ => cases hc
  | fixed _ _ => cases hc

theorem mk_builds {g g' : Graph POp} {c : Ctor POp} {t : Nat} {op : POp} {xs : List Nat} (h : mk g c = .ok (g', t)) (hc : ctorApp c = some (op, xs.map inp)) : BuildsW W g g' :=
  mk_builds' h hc mem_inputs

theorem unCtor_app (op : EOp) (x : Nat) : ctorApp (unCtor op x) = some (.un op, [x].map inp) := by
  cases op <;> rfl

theorem buildE_builds {x y gy : Nat} : ∀ (e : EExp) {g g' : Graph POp} {t : Nat}, buildE x y gy e g = .ok (g', t) → BuildsW W g g' := by
  intro e
  induction e with
  | x => intro g g' t h; cases h; exact .refl
  | y => intro g g' t h; cases h; exact .refl
  | gy => intro g g' t h; cases h; exact .refl
  | const c => intro g g' t h; exact mk_builds (xs := []) h rfl
  | app op e ih =>
    intro g g' t h
    simp only [buildE, bind_ok] at h
    obtain ⟨⟨g1, a⟩, h1, h2⟩ := h
    exact (ih h1).trans (mk_builds h2 (unCtor_app op a))
  | add a b iha ihb =>
    intro g g' t h
    simp only [buildE, bind_ok] at h
    obtain ⟨⟨g1, u⟩, h1, ⟨g2, v⟩, h2, h3⟩ := h
    exact ((iha h1).trans (ihb h2)).trans (mk_builds (xs := [u, v]) h3 rfl)
  | sub a b iha ihb =>
    intro g g' t h
    simp only [buildE, bind_ok] at h
    obtain ⟨⟨g1, u⟩, h1, ⟨g2, v⟩, h2, h3⟩ := h
    exact ((iha h1).trans (ihb h2)).trans (mk_builds (xs := [u, v]) h3 rfl)
  | mul a b iha ihb =>
    intro g g' t h
    simp only [buildE, bind_ok] at h
    obtain ⟨⟨g1, u⟩, h1, ⟨g2, v⟩, h2, h3⟩ := h
    exact ((iha h1).trans (ihb h2)).trans (mk_builds (xs := [u, v]) h3 rfl)
  | div a b iha ihb =>
    intro g g' t h
    simp only [buildE, bind_ok] at h
    obtain ⟨⟨g1, u⟩, h1, ⟨g2, v⟩, h2, h3⟩ := h
    exact ((iha h1).trans (ihb h2)).trans (mk_builds (xs := [u, v]) h3 rfl)
  | greater a b iha ihb =>
    intro g g' t h
    simp only [buildE, bind_ok] at h
    obtain ⟨⟨g1, u⟩, h1, ⟨g2, v⟩, h2, h3⟩ := h
    exact ((iha h1).trans (ihb h2)).trans (mk_builds (xs := [u, v]) h3 rfl)
  | eluGrad al a b iha ihb =>
    intro g g' t h
    simp only [buildE, bind_ok] at h
    obtain ⟨⟨g1, u⟩, h1, ⟨g2, v⟩, h2, h3⟩ := h
    exact ((iha h1).trans (ihb h2)).trans (mk_builds (xs := [u, v]) h3 rfl)
  | clipGrad lo hi a b iha ihb =>
    intro g g' t h
    simp only [buildE, bind_ok] at h
    obtain ⟨⟨g1, u⟩, h1, ⟨g2, v⟩, h2, h3⟩ := h
    exact ((iha h1).trans (ihb h2)).trans (mk_builds (xs := [u, v]) h3 rfl)

/-- The tensor gets no back-propagation inputs of its own. -/
def Cmd.noBp : Cmd → Bool
  | .withBp _ _ _ => false
  | _ => true

theorem cmd_builds {ρ : Ref → Nat} {g g' : Graph POp} {t : Nat} : ∀ {c : Cmd}, c.noBp = true ∨ W → c.build ρ g = .ok (g', t) → BuildsW W g g'
  | .shape _, _, h => shape_builds h
  | .bin _ a b, _, h => mk_builds (xs := [ρ a, ρ b]) h rfl
  | .plain op as, _, h => mk_builds (op := op) (xs := as.map ρ) (c := .plain op (as.map (fun a => inp (ρ a)))) h (by simp [ctorApp])
  | .like op as a, _, h => mk_builds (op := op) (xs := as.map ρ) (c := .like op (as.map (fun a => inp (ρ a))) (ρ a)) h (by simp [ctorApp])
  | .un op a, _, h => mk_builds h (unCtor_app op (ρ a))
  | .scalar _, _, h => mk_builds (xs := []) h rfl
  | .vec _, _, h => mk_builds (xs := []) h rfl
  | .nth a n, _, h => mk_builds' (is := [{ id := ρ a, selector := n }]) h rfl (by simp)
  | .withBp op as bps, hw, h => .one (lift_ok.1 h) rfl rfl (by simp [inp]) (.inr (hw.resolve_left (by simp [Cmd.noBp])))

theorem cmds_builds {xs : List Nat} {y gy : Nat} : ∀ {cs : List Cmd} {ts ts' : List Nat} {g g' : Graph POp}, cs.all Cmd.noBp = true ∨ W → runCmds xs y gy cs ts g = .ok (g', ts') → BuildsW W g g' := by
  intro cs
  induction cs with
  | nil => intro ts ts' g g' _ h; cases h; exact .refl
  | cons c cs ih =>
    intro ts ts' g g' hw h
    simp only [runCmds, bind_ok] at h
    obtain ⟨⟨g1, t⟩, h1, h2⟩ := h
    rw [List.all_cons, Bool.and_eq_true] at hw
    exact (cmd_builds (hw.imp_left And.left) h1).trans (ih (hw.imp_left And.right) h2)

theorem gradCmds_ok {xs : List Nat} {y gy : Nat} {cs : List Cmd} {out : List (Option Ref)} {g g' : Graph POp} {gxs : List (Option Nat)}
    (h : gradCmds xs y gy cs out g = .ok (g', gxs)) : ∃ ts, runCmds xs y gy cs [] g = .ok (g', ts) ∧ gxs = out.map (Option.map (Ref.id xs y gy ts)) := by
  simp only [gradCmds, bind_ok] at h
  obtain ⟨⟨g1, ts⟩, h1, h2⟩ := h
  obtain ⟨rfl, rfl⟩ := Prod.mk.inj (Except.ok.inj h2)
  exact ⟨ts, h1, rfl⟩

theorem gradCmds_builds {xs : List Nat} {y gy : Nat} {cs : List Cmd} {out : List (Option Ref)} {g g' : Graph POp} {gxs : List (Option Nat)}
    (hw : cs.all Cmd.noBp = true ∨ W) (h : gradCmds xs y gy cs out g = .ok (g', gxs)) : BuildsW W g g' := by
  obtain ⟨ts, h, _⟩ := gradCmds_ok h
  exact cmds_builds hw h

/-- Only the gradient of a convolution builds a tensor with back-propagation inputs of its own. -/
theorem gradOf_builds {g g' : Graph POp} {y gy : Nat} {op : POp} {xs : List Nat} {gxs : List (Option Nat)} (hw : (∀ pad stride dil, op ≠ .conv2d pad stride dil) ∨ W)
    (h : gradOf g y gy op xs = .ok (g', gxs)) : BuildsW W g g' := by
  unfold gradOf at h
  split at h
  · cases h; exact .refl
  · cases h; exact .refl
  · cases h; exact .refl
  · cases h; exact .refl
  · cases h; exact .refl
  · cases h; exact .refl
  · cases h; exact .refl
  · cases h; exact .refl
  · cases h; exact .refl
  · rename_i a b
    simp only [bind_ok] at h
    obtain ⟨⟨g1, s0⟩, h1, ⟨g2, s1⟩, h2, ⟨g3, t0⟩, h3, ⟨g4, t1⟩, h4, h5⟩ := h
    cases h5
    exact (((shape_builds h1).trans (shape_builds h2)).trans (mk_builds (xs := [gy, s0]) h3 rfl)).trans (mk_builds (xs := [gy, s1]) h4 rfl)
  · rename_i a b
    simp only [bind_ok] at h
    obtain ⟨⟨g1, s0⟩, h1, ⟨g2, s1⟩, h2, ⟨g3, t0⟩, h3, ⟨g4, t1⟩, h4, ⟨g5, t2⟩, h5, h6⟩ := h
    cases h6
    exact ((((shape_builds h1).trans (shape_builds h2)).trans (mk_builds (xs := [gy, s0]) h3 rfl)).trans (mk_builds (xs := [gy, s1]) h4 rfl)).trans
      (mk_builds h5 (unCtor_app _ _))
  · rename_i a b
    simp only [bind_ok] at h
    obtain ⟨⟨g1, s0⟩, h1, ⟨g2, s1⟩, h2, ⟨g3, m0⟩, h3, ⟨g4, m1⟩, h4, ⟨g5, t0⟩, h5, ⟨g6, t1⟩, h6, h7⟩ := h
    cases h7
    exact (((((shape_builds h1).trans (shape_builds h2)).trans (mk_builds (xs := [gy, b]) h3 rfl)).trans (mk_builds (xs := [gy, a]) h4 rfl)).trans
      (mk_builds (xs := [m0, s0]) h5 rfl)).trans (mk_builds (xs := [m1, s1]) h6 rfl)
  · rename_i a b
    simp only [bind_ok] at h
    obtain ⟨⟨g1, s0⟩, h1, ⟨g2, s1⟩, h2, ⟨g3, m0⟩, h3, ⟨g4, n⟩, h4, ⟨g5, q⟩, h5, ⟨g6, m⟩, h6, ⟨g7, m1⟩, h7, ⟨g8, t0⟩, h8, ⟨g9, t1⟩, h9, h10⟩ := h
    cases h10
    exact ((((((((shape_builds h1).trans (shape_builds h2)).trans (mk_builds (xs := [gy, b]) h3 rfl)).trans (mk_builds h4 (unCtor_app _ _))).trans
      (mk_builds h5 (unCtor_app _ _))).trans (mk_builds (xs := [n, q]) h6 rfl)).trans (mk_builds (xs := [m, gy]) h7 rfl)).trans
      (mk_builds (xs := [m0, s0]) h8 rfl)).trans (mk_builds (xs := [m1, s1]) h9 rfl)
  · split at h
    · cases h; exact .refl
    · simp only [bind_ok] at h
      obtain ⟨⟨g1, t⟩, h1, h2⟩ := h
      cases h2
      exact buildE_builds _ h1
  · rename_i a b
    simp only [bind_ok] at h
    obtain ⟨⟨g1, t0⟩, h1, ⟨g2, t1⟩, h2, h3⟩ := h
    cases h3
    exact (mk_builds (xs := [gy, b]) h1 rfl).trans (mk_builds (xs := [a, gy]) h2 rfl)
  · simp only [bind_ok] at h
    obtain ⟨⟨g1, s⟩, h1, ⟨g2, t⟩, h2, h3⟩ := h
    cases h3
    exact (shape_builds h1).trans (mk_builds (xs := [gy, s]) h2 rfl)
  · rename_i x axes
    simp only [bind_ok] at h
    obtain ⟨⟨g1, s⟩, h1, ⟨g2, t⟩, h2, h3⟩ := h
    cases h3
    exact (shape_builds h1).trans (mk_builds (xs := [gy, s, axes]) h2 rfl)
  all_goals first
    | exact gradCmds_builds (.inl rfl) h
    | exact gradCmds_builds (.inr (hw.resolve_left (fun h => h _ _ _ rfl))) h
    | (cases h; done)
    | (cases h; exact .refl)
    | skip
  · simp only [bind_ok] at h
    obtain ⟨⟨g1, s⟩, h1, ⟨g2, t⟩, h2, h3⟩ := h
    cases h3
    exact (shape_builds h1).trans (mk_builds (xs := [gy, s]) h2 rfl)
  · simp only [bind_ok] at h
    obtain ⟨⟨g1, s⟩, h1, ⟨g2, t⟩, h2, h3⟩ := h
    cases h3
    exact (shape_builds h1).trans (mk_builds (xs := [gy, s]) h2 rfl)
  · simp only [bind_ok] at h
    obtain ⟨⟨g1, t⟩, h1, h2⟩ := h
    cases h2
    exact mk_builds (xs := [gy]) h1 rfl
  · rename_i axes
    simp only [bind_ok] at h
    obtain ⟨⟨g1, t⟩, h1, h2⟩ := h
    cases h2
    exact mk_builds (xs := [gy, axes]) h1 rfl

/-- At least one optional gradient is reported per input. -/
theorem gradOf_length {g g' : Graph POp} {y gy : Nat} {op : POp} {xs : List Nat} {gxs : List (Option Nat)} (h : gradOf g y gy op xs = .ok (g', gxs)) :
    xs.length ≤ gxs.length := by
  unfold gradOf at h
  split at h
  all_goals first
    | (cases h; done)
    | (cases h; exact (by simp))
    | (obtain ⟨ts, _, rfl⟩ := gradCmds_ok h; exact (by simp))
    | (simp only [bind_ok] at h
       repeat' (obtain ⟨_, _, h⟩ := h)
       simp; done)
    | (split at h
       · cases h; simp
       · simp only [bind_ok] at h
         obtain ⟨_, _, h⟩ := h
         cases h; simp)

theorem opGrad_builds : ∀ op g y gy g' gxs, gradOps.opGrad op g y gy = .ok (g', gxs) → Builds g g' := by
  intro op g y gy g' gxs h
  simp only [gradOps, POp.opGrad, bind_ok, lift_ok] at h
  obtain ⟨n, _, h⟩ := h
  exact gradOf_builds (.inr trivial) h

end Verif.Prog
