import Verif.Spec.Scalar
import Verif.Lemmas.EvalPure
import Verif.Lemmas.GradLoop
import Mathlib.Algebra.Ring.Basic

/-!
# The calculus of scalar graphs is sound
-/

namespace Verif.Gradient
open Verif Verif.Graph Verif.Spec Verif.Eval

variable {Op E R : Type} {S : Setting Op E R}

theorem Evals.mono {g g' : Graph Op} (hg : Grows g g') (hc : InputsExist g) {t : Nat} {v : R} (h : Evals S g t v) : Evals S g' t v := by
  have hext : Extends g g' := hg.1
  refine ⟨hext.targetMeans hc h.1, ?_⟩
  have hlt : ∃ n, g.nodes[t]? = some n := by
    cases h.1 with
    | placeholder h _ _ => exact ⟨_, h⟩
    | variable_ h _ _ => exact ⟨_, h⟩
    | result h _ => cases h with
      | run h _ _ _ _ => exact ⟨_, h⟩
  obtain ⟨n, hn⟩ := hlt
  intro n' hn'
  rw [hg.1 _ _ hn] at hn'; cases hn'
  exact h.2 n hn

/-- The outputs of an op tensor whose inputs have values. -/
theorem means_app {g : Graph Op} {t : Nat} {op : Op} {xs : List Nat} {vs ys : List R} (ha : IsApp g t op xs)
    (hx : List.Forall₂ (Evals S g) xs vs) (hf : ∀ ins : List (OpInput R), ins.map OpInput.val = vs → S.f op ins = some (.ok ys)) :
    Means S.f S.shapeOf g S.feeds S.env t (.ok ys) := by
  classical
  obtain ⟨n, hn, rfl, hin, hp, hv⟩ := ha
  have hop : IsOp g t := ⟨n, hn, hp, hv⟩
  let cv : Nat → Except E (List R) := fun b =>
    if h : ∃ ys, Means S.f S.shapeOf g S.feeds S.env b (.ok ys) then .ok h.choose else .ok []
  have hcv : ∀ b ys, Means S.f S.shapeOf g S.feeds S.env b (.ok ys) → cv b = .ok ys := by
    intro b ys h
    have hex : ∃ ys, Means S.f S.shapeOf g S.feeds S.env b (.ok ys) := ⟨ys, h⟩
    simp only [cv, dif_pos hex]
    have := means_unique hex.choose_spec h
    simpa using this
  have key : ∀ {xs : List Nat} {vs : List R}, List.Forall₂ (Evals S g) xs vs → ∃ os : List (OpInput R), os.map OpInput.val = vs ∧
      InputsAre S.shapeOf g S.feeds S.env cv (xs.map (fun x => ({ id := x } : Incoming))) (.ok os) := by
    intro xs vs h
    induction h with
    | nil => exact ⟨[], rfl, .nil⟩
    | @cons x v xs vs hxv _ ih =>
      obtain ⟨os, h1, h2⟩ := ih
      have : ∃ o : OpInput R, o.val = v ∧ InputIs S.shapeOf g S.feeds S.env cv { id := x } (.ok o) := by
        obtain ⟨h3, h4⟩ := hxv
        cases h3 with
        | placeholder hn _ hf => exact ⟨_, rfl, .placeholder hn hf⟩
        | variable_ hn hv ha => exact ⟨_, rfl, .variable_ hn (h4 _ hn (by simp [hv])) hv ha⟩
        | result hm hy =>
          refine ⟨_, rfl, .result ?_ (hcv _ _ hm) hy⟩
          cases hm with
          | run _ ho _ _ _ => exact ho
      obtain ⟨o, h3, h4⟩ := this
      exact ⟨o :: os, by simp [h1, h3], .cons h4 h2⟩
  obtain ⟨os, h1, h2⟩ := key hx
  refine .run (cv := cv) (xs := os) hn hop ?_ (by rw [hin]; exact h2) (hf os h1)
  rintro b ⟨⟨n', hn', i, hi, rfl⟩, hb⟩
  rw [hn] at hn'; cases hn'
  rw [hin] at hi
  obtain ⟨x, hxm, rfl⟩ := List.mem_map.1 hi
  have : ∃ v, Evals S g x v := by
    clear key h1 h2 hf hin hn hi
    induction hx with
    | nil => cases hxm
    | cons h _ ih =>
      rcases List.mem_cons.1 hxm with rfl | hxm
      · exact ⟨_, h⟩
      · exact ih hxm
  obtain ⟨v, h3, _⟩ := this
  obtain ⟨n2, hn2, hp2, hv2⟩ := hb
  cases h3 with
  | placeholder hn' _ hf =>
    rw [hn2] at hn'; cases hn'
    obtain ⟨name, _, h, _⟩ := hf
    rw [hp2] at h; cases h
  | variable_ hn' hv _ => rw [hn2] at hn'; cases hn'; rw [hv2] at hv; cases hv
  | result hm hy => rw [hcv _ _ hm]; exact hm

theorem evals_outputs {g : Graph Op} {t : Nat} {op : Op} {xs : List Nat} {vs ys : List R} {v : R} (ha : IsApp g t op xs)
    (hx : List.Forall₂ (Evals S g) xs vs) (hf : ∀ ins : List (OpInput R), ins.map OpInput.val = vs → S.f op ins = some (.ok (v :: ys))) : Evals S g t v := by
  refine ⟨.result (means_app ha hx hf) rfl, ?_⟩
  obtain ⟨n, hn, _, _, hp, _⟩ := ha
  exact fun n' hn' h => by rw [hn] at hn'; cases hn'; exact hp

theorem evals_app {g : Graph Op} {t : Nat} {op : Op} {xs : List Nat} {vs : List R} {v : R} (ha : IsApp g t op xs)
    (hx : List.Forall₂ (Evals S g) xs vs) (hf : Gives S op vs v) : Evals S g t v := evals_outputs ha hx hf

variable [CommRing R] {g0 : Graph Op} {d : Nat → List R} {ε : Type} {addN zeros shapeOp : Op}
  {opGrad : Op → Graph Op → Nat → Nat → Except ε (Graph Op × List (Option Nat))}

theorem chain_cons (i : Incoming) (is : List Incoming) (a : R) (ds : List R) (t : Nat → R) :
    chain (i :: is) (a :: ds) t = a * t i.id + chain is ds t := by
  simp [chain]

theorem chain_zero {is : List Incoming} {ds : List R} {t : Nat → R} (h : ∀ i ∈ is, t i.id = 0) : chain is ds t = 0 := by
  induction is generalizing ds with
  | nil => simp [chain]
  | cons i is ih =>
    cases ds with
    | nil => simp [chain]
    | cons a ds => rw [chain_cons, h i (by simp), ih (fun j hj => h j (by simp [hj]))]; simp

theorem chain_congr {is : List Incoming} {ds : List R} {t t' : Nat → R} (h : ∀ i ∈ is, t i.id = t' i.id) :
    chain is ds t = chain is ds t' := by
  induction is generalizing ds with
  | nil => simp [chain]
  | cons i is ih =>
    cases ds with
    | nil => simp [chain]
    | cons a ds => rw [chain_cons, chain_cons, h i (by simp), ih (fun j hj => h j (by simp [hj]))]

theorem scalar_contribs {g : Graph Op} {v : R} : ∀ {is : List Incoming} {gxs : List (Option Nat)} {ds : List R},
    ds.length = is.length → List.Forall₂ (GradIs S g v) gxs ds →
    ∃ φ, Contribs (scalarCalculus S g0 d) g is gxs φ ∧ ∀ t : Nat → R, v * chain is ds t = φ t := by
  intro is
  induction is with
  | nil =>
    intro gxs ds hl h
    cases h with
    | nil => exact ⟨_, .nil, fun t => by simp [chain]; rfl⟩
    | cons _ _ => simp at hl
  | cons i is ih =>
    intro gxs ds hl h
    cases h with
    | nil => simp at hl
    | @cons gx a gxs ds h1 h2 =>
      obtain ⟨φ, h3, h4⟩ := ih (by simpa using hl) h2
      cases gx with
      | none =>
        refine ⟨φ, .none h3, fun t => ?_⟩
        have : a = 0 := h1
        rw [chain_cons, ← h4, this, zero_mul, zero_add]
      | some u =>
        let c : R →+ R := AddMonoidHom.mulLeft (v * a)
        refine ⟨_, .some (K := scalarCalculus S g0 d) (c := c) ⟨v * a, h1, fun τ => rfl⟩ h3, fun t => ?_⟩
        have : v * chain (i :: is) (a :: ds) t = (v * a) * t i.id + v * chain is ds t := by rw [chain_cons, mul_add, mul_assoc]
        exact this.trans (congrArg (fun b : R => (v * a) * t i.id + b) (h4 t))

theorem scalar_sound {D : Nat → Prop} (h : ScalarGraph S g0 d addN zeros shapeOp opGrad) :
    GradSound (scalarCalculus S g0 d) g0 D addN zeros shapeOp opGrad := by
  constructor
  · rintro g g' n t c hg hg' ⟨v, h1, h2⟩
    exact ⟨v, Evals.mono hg' (hg.2 h.closed) h1, h2⟩
  · intro g n s ts cs hg hl ha hts
    have : ∃ vs : List R, List.Forall₂ (Evals S g) ts vs ∧ ∀ τ : R, (cs.sum : R →+ R) τ = vs.sum * τ := by
      clear ha hl
      induction hts with
      | nil => exact ⟨[], .nil, fun τ => by simp; rfl⟩
      | cons h1 _ ih =>
        obtain ⟨v, h3, h4⟩ := h1
        obtain ⟨vs, h5, h6⟩ := ih
        refine ⟨v :: vs, .cons h3 h5, fun τ => ?_⟩
        rw [List.sum_cons, List.sum_cons]
        have := h6 τ
        rw [add_mul]
        exact congrArg₂ (fun a b : R => a + b) (h4 τ) this
    obtain ⟨vs, h1, h2⟩ := this
    exact ⟨vs.sum, evals_app ha h1 (h.addN vs), h2⟩
  · intro g x nx z s hg hx hz hs
    have hxl := (List.getElem?_eq_some_iff.1 hx).1
    have : ∃ v, Evals S g s v := by
      rcases hs with hs | hs
      · obtain ⟨v, hv⟩ := h.vals s (h.shapes x nx s hx hs)
        exact ⟨v, Evals.mono hg h.closed hv⟩
      · obtain ⟨v, hv⟩ := h.vals x hxl
        obtain ⟨u, hu⟩ := h.shapeOp v
        exact ⟨u, evals_app hs (.cons (Evals.mono hg h.closed hv) .nil) hu⟩
    obtain ⟨v, hv⟩ := this
    exact ⟨0, evals_app hz (.cons hv .nil) (h.zeros v), fun τ => by rw [zero_mul]; rfl⟩
  · intro n node t hn ht
    simp only [scalarCalculus, hn]
    exact chain_zero ht
  · rintro n node g g' gy gxs c _ hg hn hd ⟨v, h1, h2⟩ hgx
    obtain ⟨h3, h4⟩ := h.opGrad hg hn hd h1 hgx
    obtain ⟨φ, h5, h6⟩ := scalar_contribs (g0 := g0) (d := d) (h.len n node hn) h4
    refine ⟨h3, φ, h5, fun t => ?_⟩
    have e : (scalarCalculus S g0 d).lin n t = chain node.bpInputs (d n) t := by simp only [scalarCalculus, hn]
    rw [e]
    exact (h2 _).trans (h6 t)

theorem scalar_local : LocalLin (scalarCalculus S g0 d) g0 := by
  intro n node t t' hn h
  simp only [scalarCalculus, hn]
  exact chain_congr h

end Verif.Gradient
