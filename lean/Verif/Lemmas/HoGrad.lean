import Verif.Lemmas.HoInv
import Verif.Lemmas.ProgramReduceTo

/-! The gradient functions build smooth tensors of the right shapes. -/

namespace Verif.Prog
open Verif Verif.Graph Verif.Nd Verif.Hint Verif.Gradient Verif.Spec Verif.Eval

theorem rep_index {s : List Nat} (hpos : ∀ d ∈ s, 0 < d) {full : Bool} {r : Arr ℝ} {v : List Nat → ℝ} (h : Rep s full r v) {j : List Nat} (hj : InB j r.shape) :
    ∃ i, InB i s ∧ r.get j = v i := by
  have hs := h.1
  cases full
  · refine ⟨_, inB_zeros hpos, ?_⟩
    rw [← h.2 _ (inB_zeros hpos)]
    rw [hs] at hj ⊢
    cases hj
    simp [shp, bIdx_nil]
  · have hs' : r.shape = s := hs
    rw [hs'] at hj
    refine ⟨j, hj, ?_⟩
    rw [← h.2 j hj, hs', bIdx_self hj]

theorem shp_pos {s : List Nat} (hpos : ∀ d ∈ s, 0 < d) (b : Bool) : ∀ d ∈ shp s b, 0 < d := by
  cases b
  · simp [shp]
  · exact hpos

theorem inferable_shp {s : List Nat} (hpos : ∀ d ∈ s, 0 < d) (a b : Bool) : Inferable (shp s a) (shp s b) := by
  refine ⟨?_, shp_pos hpos a, shp_pos hpos b⟩
  cases a <;> cases b <;> simp [shp]

/-- The tensor `t` has the shape of `x`. -/
def SameShape (F : List (Feed (Arr ℝ))) (N : List (Arr ℝ)) (g : Graph POp) (x t : Nat) : Prop :=
  ∃ vx vt, Evals (setting F N) g x vx ∧ Evals (setting F N) g t vt ∧ vt.shape = vx.shape

theorem SameShape.mono {F : List (Feed (Arr ℝ))} {N : List (Arr ℝ)} {g g' : Graph POp} (hg : Grows g g') (hc : InputsExist g) {x t : Nat} (h : SameShape F N g x t) :
    SameShape F N g' x t := by
  obtain ⟨vx, vt, a, b, c⟩ := h
  exact ⟨vx, vt, Evals.mono hg hc a, Evals.mono hg hc b, c⟩

section
variable {B : Bool} {F : List (Feed (Arr ℝ))} {N : List (Arr ℝ)}

theorem SInv.buildE {x y gy : Nat} {s : List Nat} {xv yv gv : Arr ℝ} (hxs : xv.shape = s) (hys : yv.shape = s) (hgs : gv.shape = s) (hpos : ∀ d ∈ s, 0 < d) :
    ∀ (e : EExp) {g g' : Graph POp} {t : Nat}, e.Ok s → (∀ i, InB i s → e.SmoothAt B (xv.get i) (yv.get i) (gv.get i)) → SInv B F N g →
      Evals (setting F N) g x xv → Evals (setting F N) g y yv → Evals (setting F N) g gy gv → Prog.buildE x y gy e g = .ok (g', t) →
      Grows g g' ∧ SInv B F N g' ∧ ∃ r, Evals (setting F N) g' t r ∧ Rep s e.full r (fun i => e.val (xv.get i) (yv.get i) (gv.get i)) := by
  have i0 := inB_zeros hpos
  have bin : ∀ (op : POp) (f : ℝ → ℝ → ℝ) (a b : EExp)
      (_ : ∀ {g g' : Graph POp} {t : Nat}, a.Ok s → (∀ i, InB i s → a.SmoothAt B (xv.get i) (yv.get i) (gv.get i)) → SInv B F N g →
        Evals (setting F N) g x xv → Evals (setting F N) g y yv → Evals (setting F N) g gy gv → Prog.buildE x y gy a g = .ok (g', t) →
        Grows g g' ∧ SInv B F N g' ∧ ∃ r, Evals (setting F N) g' t r ∧ Rep s a.full r (fun i => a.val (xv.get i) (yv.get i) (gv.get i)))
      (_ : ∀ {g g' : Graph POp} {t : Nat}, b.Ok s → (∀ i, InB i s → b.SmoothAt B (xv.get i) (yv.get i) (gv.get i)) → SInv B F N g →
        Evals (setting F N) g x xv → Evals (setting F N) g y yv → Evals (setting F N) g gy gv → Prog.buildE x y gy b g = .ok (g', t) →
        Grows g g' ∧ SInv B F N g' ∧ ∃ r, Evals (setting F N) g' t r ∧ Rep s b.full r (fun i => b.val (xv.get i) (yv.get i) (gv.get i)))
      (_ : a.Ok s) (_ : ∀ i, InB i s → a.SmoothAt B (xv.get i) (yv.get i) (gv.get i)) (_ : b.Ok s)
      (_ : ∀ i, InB i s → b.SmoothAt B (xv.get i) (yv.get i) (gv.get i))
      (_ : ∀ r r' : Arr ℝ, Rep s a.full r (fun i => a.val (xv.get i) (yv.get i) (gv.get i)) → Rep s b.full r' (fun i => b.val (xv.get i) (yv.get i) (gv.get i)) →
        ∃ z, op.run [r, r'] = .ok z ∧ IsBinary f r r' (shp s (a.full || b.full)) z ∧ SOk B op [r, r'])
      (_ : ∀ u v, fixedIn op [u, v] = []) {g g' : Graph POp} {t : Nat} (_ : SInv B F N g)
      (_ : Evals (setting F N) g x xv) (_ : Evals (setting F N) g y yv) (_ : Evals (setting F N) g gy gv)
      (_ : (do let (g1, u) ← Prog.buildE x y gy a g; let (g2, v) ← Prog.buildE x y gy b g1; Prog.mk g2 (.binary op u v)) = .ok (g', t)),
      Grows g g' ∧ SInv B F N g' ∧ ∃ r, Evals (setting F N) g' t r ∧
        Rep s (a.full || b.full) r (fun i => f (a.val (xv.get i) (yv.get i) (gv.get i)) (b.val (xv.get i) (yv.get i) (gv.get i))) := by
    intro op f a b iha ihb oa sa ob sb hrun hfix g g' t hi hx hy hg h
    simp only [bind_ok] at h
    obtain ⟨⟨g1, u⟩, h1, ⟨g2, v⟩, h2, h3⟩ := h
    obtain ⟨a1, b1, r1, c1, d1⟩ := iha oa sa hi hx hy hg h1
    obtain ⟨a2, b2, r2, c2, d2⟩ := ihb ob sb b1 (Evals.mono a1 hi.closed hx) (Evals.mono a1 hi.closed hy) (Evals.mono a1 hi.closed hg) h2
    obtain ⟨z, hz, hb, hok⟩ := hrun r1 r2 d1 d2
    obtain ⟨a3, b3, c3⟩ := b2.binary (lift_ok.1 h3) (Evals.mono a2 b1.closed c1) c2 hz (by rw [hb.1, d1.1, d2.1]; exact commonShape_shp s _ _)
      (by rw [d1.1, d2.1]; exact inferable_shp hpos _ _) hok (hfix _ _)
    exact ⟨(a1.trans a2).trans a3, b3, z, c3, rep_binary d1 d2 hb⟩
  have hinf : ∀ {a b : Bool} {r r' : Arr ℝ} {v v' : List Nat → ℝ}, Rep s a r v → Rep s b r' v' → Inferable r.shape r'.shape := fun h h' => by
    rw [h.1, h'.1]; exact inferable_shp hpos _ _
  intro e
  induction e with
  | x => intro g g' t _ _ hi hx _ _ h; cases h; exact ⟨grows_refl _, hi, xv, hx, hxs, fun i hi => by rw [hxs, bIdx_self hi]; rfl⟩
  | y => intro g g' t _ _ hi _ hy _ h; cases h; exact ⟨grows_refl _, hi, yv, hy, hys, fun i hi => by rw [hys, bIdx_self hi]; rfl⟩
  | gy => intro g g' t _ _ hi _ _ hg h; cases h; exact ⟨grows_refl _, hi, gv, hg, hgs, fun i hi => by rw [hgs, bIdx_self hi]; rfl⟩
  | const c =>
    intro g g' t _ _ hi _ _ _ h
    obtain ⟨a, b, c'⟩ := hi.scalar (lift_ok.1 h) (v := ofFn [] (fun _ => c)) rfl rfl trivial rfl
    exact ⟨a, b, _, c', rfl, fun i hi => rfl⟩
  | app op e ih =>
    intro g g' t ho hsm hi hx hy hg h
    simp only [Prog.buildE, bind_ok] at h
    obtain ⟨⟨g1, u⟩, h1, h2⟩ := h
    obtain ⟨a1, b1, r, c1, d1⟩ := ih ho (fun i hi => (hsm i hi).1) hi hx hy hg h1
    obtain ⟨a2, b2, c2⟩ := b1.un (lift_ok.1 h2) c1 (by
      refine ⟨by rw [d1.1]; exact shp_pos hpos _, fun hd => absurd hd (hsm _ i0).2.2.1, fun j hj => ?_, (hsm _ i0).2.2.2⟩
      obtain ⟨i, hi, e⟩ := rep_index hpos d1 hj
      rw [e]
      exact (hsm i hi).2.1)
    refine ⟨a1.trans a2, b2, _, c2, d1.1, fun i hi => ?_⟩
    show op.f (r.get (bIdx r.shape i)) = _
    rw [d1.2 i hi]; rfl
  | add u v ihu ihv =>
    intro g g' t ho hsm hi hx hy hg h
    exact bin .add (· + ·) u v ihu ihv ho.1 (fun i hi => (hsm i hi).1) ho.2 (fun i hi => (hsm i hi).2) (fun r r' h h' => by
      obtain ⟨z, hz, hb⟩ := binForward_shp (f := (· + ·)) (fun x y => add_comm x y) h.1 h'.1
      exact ⟨z, hz, hb, hinf h h'⟩) (fun _ _ => rfl) hi hx hy hg h
  | mul u v ihu ihv =>
    intro g g' t ho hsm hi hx hy hg h
    exact bin .mul (· * ·) u v ihu ihv ho.1 (fun i hi => (hsm i hi).1) ho.2 (fun i hi => (hsm i hi).2) (fun r r' h h' => by
      obtain ⟨z, hz, hb⟩ := binForward_shp (f := (· * ·)) (fun x y => mul_comm x y) h.1 h'.1
      exact ⟨z, hz, hb, hinf h h'⟩) (fun _ _ => rfl) hi hx hy hg h
  | sub u v ihu ihv =>
    intro g g' t ho hsm hi hx hy hg h
    exact bin .sub (· - ·) u v ihu ihv ho.1 (fun i hi => (hsm i hi).1) ho.2 (fun i hi => (hsm i hi).2) (fun r r' h h' => by
      obtain ⟨z, hz, hb⟩ := subOp_spec (x0 := r) (x1 := r') (by rw [h.1, h'.1]; exact commonShape_shp s _ _)
      exact ⟨z, hz, hb, hinf h h'⟩) (fun _ _ => rfl) hi hx hy hg h
  | div u v ihu ihv =>
    intro g g' t ho hsm hi hx hy hg h
    exact bin .div (· / ·) u v ihu ihv ho.1 (fun i hi => (hsm i hi).1) ho.2.1 (fun i hi => (hsm i hi).2.1) (fun r r' h h' => by
      have hne : r'.shape ≠ [1] := by rw [h'.1]; cases v.full <;> simp [shp, ho.2.2.2]
      obtain ⟨z, hz, hb⟩ := divOp_spec (x0 := r) (x1 := r') (by rw [h.1, h'.1]; exact commonShape_shp s _ _)
        (by rw [h.1]; cases u.full <;> simp [shp, ho.2.2.1]) (fun _ => hne)
      refine ⟨z, hz, hb, hinf h h', hne, fun j hj => ?_⟩
      obtain ⟨i, hi, e⟩ := rep_index hpos h' hj
      rw [e]
      exact (hsm i hi).2.2) (fun _ _ => rfl) hi hx hy hg h
  | greater u v _ _ => intro g g' t _ hsm; exact (hsm _ i0).elim
  | eluGrad alpha u v _ _ => intro g g' t _ hsm; exact (hsm _ i0).elim
  | clipGrad lo up u v _ _ => intro g g' t _ hsm; exact (hsm _ i0).elim

/-- `maybe_reduce` of a tensor. -/
theorem SInv.reduceTo {g g' : Graph POp} (hi : SInv B F N g) {x s t : Nat} (h : Prog.mk g (Prog.reduceTo x s) = .ok (g', t)) {v : Arr ℝ} {sh : List Nat}
    (hx : Evals (setting F N) g x v) (hs : Evals (setting F N) g s (encShape sh)) (hst : Static g s) (hb : BroadcastsTo sh v.shape) (hr : ScalarOrRank sh v.shape)
    (hpos : ∀ d ∈ v.shape, 0 < d) : Grows g g' ∧ SInv B F N g' ∧ ∃ w, Evals (setting F N) g' t w ∧ w.shape = sh := by
  obtain ⟨w, w1, w2, _⟩ := maybeReduce_spec v hb hr hpos
  obtain ⟨a, b, c, _⟩ := hi.op (lift_ok.1 h : construct hintOps g (Prog.reduceTo x s) = _) (as := [x, s]) (op := .maybeReduce) (vs := [v, encShape sh]) (v := w) rfl rfl rfl rfl
    (.cons hx (.cons hs .nil)) (run_maybeReduce w1) (by
      intro s' hs'
      simp only [Option.some.injEq] at hs'
      subst hs'
      rw [w2]; exact ⟨hs, hst⟩) ⟨sh, rfl, hb, hr, hpos⟩ (by simpa [fixedIn] using hst) (by simp)
  exact ⟨a, b, w, c, w2⟩

theorem SInv.mkShape {g g' : Graph POp} (hi : SInv B F N g) {x s : Nat} (h : Prog.mkShape g x = .ok (g', s)) {v : Arr ℝ} (hx : Evals (setting F N) g x v) :
    Grows g g' ∧ SInv B F N g' ∧ Evals (setting F N) g' s (encShape v.shape) ∧ Static g' s := hi.shape (lift_ok.1 h) hx

/-- The tensors reported by a gradient function have the shapes of the inputs. -/
def GradShapes (F : List (Feed (Arr ℝ))) (N : List (Arr ℝ)) (g : Graph POp) (xs : List Nat) (gxs : List (Option Nat)) : Prop :=
  ∀ q ∈ xs.zip gxs, ∀ t, q.2 = some t → SameShape F N g q.1 t

theorem inferable_of {a t : List Nat} (hr : ScalarOrRank a t) (hpos : ∀ d ∈ t, 0 < d) (ha : ∀ d ∈ a, 0 < d) : Inferable t a :=
  ⟨hr.elim (fun h => .inr (.inl h)) (fun h => .inr (.inr h.symm)), hpos, ha⟩

theorem inferable_arith {a b v : Arr ℝ} (hr : addOp a b = .ok v ∨ subOp a b = .ok v ∨ mulOp a b = .ok v ∨ divOp a b = .ok v) (hi : Inferable a.shape b.shape) :
    CommonShape a.shape b.shape v.shape ∧ (∀ n ∈ v.shape, 0 < n) ∧ ScalarOrRank a.shape v.shape ∧ ScalarOrRank b.shape v.shape :=
  inferable_common (p := fun n => if n = 0 then a else b) (a := 0) (b := 1) hr hi

/-- The gradient functions. -/
theorem SInv.gradOf {g g' : Graph POp} (hi : SInv B F N g) {op : POp} {xs : List Nat} {y gy : Nat} {vs : List (Arr ℝ)} {yv gv : Arr ℝ} {gxs : List (Option Nat)}
    (ha : List.Forall₂ (Evals (setting F N) g) xs vs) (hok : SOk B op vs) (hrun : op.run vs = .ok yv) (hy : Evals (setting F N) g y yv)
    (hg : Evals (setting F N) g gy gv) (hs : gv.shape = yv.shape) (h : Prog.gradOf g y gy op xs = .ok (g', gxs)) :
    Grows g g' ∧ SInv B F N g' ∧ GradShapes F N g' xs gxs := by
  have hnone : ∀ {g : Graph POp} {l : List Nat} {m : List (Option Nat)}, (∀ o ∈ m, o = none) → GradShapes F N g l m := by
    intro g l m hm q hq t ht
    have := hm _ (List.of_mem_zip hq).2
    rw [this] at ht; cases ht
  have hone : ∀ {g : Graph POp} {x t : Nat} {m : List (Option Nat)} {l : List Nat}, SameShape F N g x t → GradShapes F N g l m → GradShapes F N g (x :: l) (some t :: m) := by
    intro g x t m l h1 h2 q hq t' ht
    simp only [List.zip_cons_cons, List.mem_cons] at hq
    rcases hq with rfl | hq
    · cases ht; exact h1
    · exact h2 q hq t' ht
  unfold SOk at hok
  split at hok
  case h_1 | h_2 => cases ha; simp only [Prog.gradOf, Except.ok.injEq, Prod.mk.injEq] at h; obtain ⟨rfl, rfl⟩ := h; exact ⟨grows_refl _, hi, hnone (by simp)⟩
  case h_3 | h_4 | h_13 | h_14 =>
    cases ha with | cons a1 a2 =>
    cases a2
    simp only [Prog.gradOf, Except.ok.injEq, Prod.mk.injEq] at h; obtain ⟨rfl, rfl⟩ := h; exact ⟨grows_refl _, hi, hnone (by simp)⟩
  case h_5 =>
    cases ha with | cons a1 a2 =>
    cases a2 with | cons a2 a3 =>
    cases a3
    simp only [Prog.gradOf, Except.ok.injEq, Prod.mk.injEq] at h; obtain ⟨rfl, rfl⟩ := h; exact ⟨grows_refl _, hi, hnone (by simp)⟩
  case h_6 x y' zs =>
    obtain ⟨w, w1, w2, _⟩ := addN_value (x :: y' :: zs) x.shape (by simp) (by
      intro z hz
      rcases List.mem_cons.1 hz with rfl | hz
      · rfl
      · exact hok z hz)
    have hrun : Nd.addN (x :: y' :: zs) = .ok yv := hrun
    rw [w1] at hrun
    cases hrun
    simp only [Prog.gradOf, Except.ok.injEq, Prod.mk.injEq] at h
    obtain ⟨rfl, rfl⟩ := h
    refine ⟨grows_refl _, hi, ?_⟩
    intro q hq t ht
    obtain ⟨k, hk⟩ := List.mem_iff_getElem?.1 hq
    rw [List.getElem?_zip_eq_some] at hk
    obtain ⟨v, hv, he⟩ := (forall₂_get ha).2 k _ hk.1
    have h2 := List.mem_of_getElem? hk.2
    rw [ht] at h2
    simp only [List.mem_map, Option.some.injEq] at h2
    obtain ⟨_, _, rfl⟩ := h2
    refine ⟨v, gv, he, hg, ?_⟩
    rw [hs, w2]
    rcases List.mem_cons.1 (List.mem_of_getElem? hv) with rfl | hv
    · rfl
    · exact (hok v hv).symm
  case h_7 va vb =>
    cases ha with | cons a1 a2 =>
    cases a2 with | cons a2 a3 =>
    cases a3
    rename_i a b
    obtain ⟨hc, hpos, ra, rb⟩ := inferable_arith (.inl hrun) hok
    simp only [Prog.gradOf, bind_ok] at h
    obtain ⟨⟨g1, s0⟩, h1, ⟨g2, s1⟩, h2, ⟨g3, t0⟩, h3, ⟨g4, t1⟩, h4, h⟩ := h
    simp only [Except.ok.injEq, Prod.mk.injEq] at h
    obtain ⟨rfl, rfl⟩ := h
    obtain ⟨G1, I1, E1, S1⟩ := hi.mkShape h1 a1
    obtain ⟨G2, I2, E2, S2⟩ := I1.mkShape h2 (Evals.mono G1 hi.closed a2)
    have G12 := G1.trans G2
    obtain ⟨G3, I3, w, E3, W3⟩ := I2.reduceTo h3 (Evals.mono G12 hi.closed hg) (Evals.mono G2 I1.closed E1) (S1.mono G2) (by rw [hs]; exact hc.1) (by rw [hs]; exact ra)
      (by rw [hs]; exact hpos)
    have G13 := G12.trans G3
    obtain ⟨G4, I4, w', E4, W4⟩ := I3.reduceTo h4 (Evals.mono G13 hi.closed hg) (Evals.mono G3 I2.closed E2) (S2.mono G3) (by rw [hs]; exact hc.2.1) (by rw [hs]; exact rb)
      (by rw [hs]; exact hpos)
    have G14 := G13.trans G4
    exact ⟨G14, I4, hone ⟨_, _, Evals.mono G14 hi.closed a1, Evals.mono G4 I3.closed E3, W3⟩ (hone ⟨_, _, Evals.mono G14 hi.closed a2, E4, W4⟩ (hnone (by simp)))⟩
  case h_8 va vb =>
    cases ha with | cons a1 a2 =>
    cases a2 with | cons a2 a3 =>
    cases a3
    rename_i a b
    obtain ⟨hc, hpos, ra, rb⟩ := inferable_arith (.inr (.inl hrun)) hok
    simp only [Prog.gradOf, bind_ok] at h
    obtain ⟨⟨g1, s0⟩, h1, ⟨g2, s1⟩, h2, ⟨g3, t0⟩, h3, ⟨g4, t1⟩, h4, ⟨g5, t2⟩, h5, h⟩ := h
    simp only [Except.ok.injEq, Prod.mk.injEq] at h
    obtain ⟨rfl, rfl⟩ := h
    obtain ⟨G1, I1, E1, S1⟩ := hi.mkShape h1 a1
    obtain ⟨G2, I2, E2, S2⟩ := I1.mkShape h2 (Evals.mono G1 hi.closed a2)
    have G12 := G1.trans G2
    obtain ⟨G3, I3, w, E3, W3⟩ := I2.reduceTo h3 (Evals.mono G12 hi.closed hg) (Evals.mono G2 I1.closed E1) (S1.mono G2) (by rw [hs]; exact hc.1) (by rw [hs]; exact ra)
      (by rw [hs]; exact hpos)
    have G13 := G12.trans G3
    obtain ⟨G4, I4, w', E4, W4⟩ := I3.reduceTo h4 (Evals.mono G13 hi.closed hg) (Evals.mono G3 I2.closed E2) (S2.mono G3) (by rw [hs]; exact hc.2.1) (by rw [hs]; exact rb)
      (by rw [hs]; exact hpos)
    obtain ⟨G5, I5, E5⟩ := I4.un (lift_ok.1 h5) E4 ⟨by rw [W4]; exact hok.2.2, fun h => h.elim, fun _ _ => trivial, .inr (by simp)⟩
    have G45 := G4.trans G5
    have G15 := G13.trans G45
    exact ⟨G15, I5, hone ⟨_, _, Evals.mono G15 hi.closed a1, Evals.mono G45 I3.closed E3, W3⟩ (hone ⟨_, _, Evals.mono G15 hi.closed a2, E5, W4⟩ (hnone (by simp)))⟩
  case h_9 va vb =>
    cases ha with | cons a1 a2 =>
    cases a2 with | cons a2 a3 =>
    cases a3
    rename_i a b
    obtain ⟨hc, hpos, ra, rb⟩ := inferable_arith (.inr (.inr (.inl hrun))) hok
    simp only [Prog.gradOf, bind_ok] at h
    obtain ⟨⟨g1, s0⟩, h1, ⟨g2, s1⟩, h2, ⟨g3, m0⟩, h3, ⟨g4, m1⟩, h4, ⟨g5, t0⟩, h5, ⟨g6, t1⟩, h6, h⟩ := h
    simp only [Except.ok.injEq, Prod.mk.injEq] at h
    obtain ⟨rfl, rfl⟩ := h
    obtain ⟨G1, I1, E1, S1⟩ := hi.mkShape h1 a1
    obtain ⟨G2, I2, E2, S2⟩ := I1.mkShape h2 (Evals.mono G1 hi.closed a2)
    have G12 := G1.trans G2
    have c0 : CommonShape gv.shape vb.shape yv.shape := by rw [hs]; exact commonShape_left hc.2.1
    have c1 : CommonShape gv.shape va.shape yv.shape := by rw [hs]; exact commonShape_left hc.1
    have i0 : Inferable gv.shape vb.shape := by rw [hs]; exact inferable_of rb hpos hok.2.2
    have i1 : Inferable gv.shape va.shape := by rw [hs]; exact inferable_of ra hpos hok.2.1
    obtain ⟨z0, z1, z2⟩ := mulOp_spec (x0 := gv) (x1 := vb) c0 hpos
    obtain ⟨z0', z1', z2'⟩ := mulOp_spec (x0 := gv) (x1 := va) c1 hpos
    obtain ⟨G3, I3, E3⟩ := I2.binary (lift_ok.1 h3) (Evals.mono G12 hi.closed hg) (Evals.mono G12 hi.closed a2) (op := .mul) z1 (by rw [z2.1]; exact c0) i0 i0 rfl
    have G13 := G12.trans G3
    obtain ⟨G4, I4, E4⟩ := I3.binary (lift_ok.1 h4) (Evals.mono G13 hi.closed hg) (Evals.mono G13 hi.closed a1) (op := .mul) z1' (by rw [z2'.1]; exact c1) i1 i1 rfl
    have G14 := G13.trans G4
    have G34 := G3.trans G4
    obtain ⟨G5, I5, w, E5, W5⟩ := I4.reduceTo h5 (Evals.mono G4 I3.closed E3) (Evals.mono (G2.trans G34) I1.closed E1) (S1.mono (G2.trans G34)) (by rw [z2.1]; exact hc.1)
      (by rw [z2.1]; exact ra) (by rw [z2.1]; exact hpos)
    have G15 := G14.trans G5
    obtain ⟨G6, I6, w', E6, W6⟩ := I5.reduceTo h6 (Evals.mono G5 I4.closed E4) (Evals.mono (G34.trans G5) I2.closed E2) (S2.mono (G34.trans G5)) (by rw [z2'.1]; exact hc.2.1)
      (by rw [z2'.1]; exact rb) (by rw [z2'.1]; exact hpos)
    have G16 := G15.trans G6
    exact ⟨G16, I6, hone ⟨_, _, Evals.mono G16 hi.closed a1, Evals.mono G6 I5.closed E5, W5⟩ (hone ⟨_, _, Evals.mono G16 hi.closed a2, E6, W6⟩ (hnone (by simp)))⟩
  case h_10 va vb =>
    cases ha with | cons a1 a2 =>
    cases a2 with | cons a2 a3 =>
    cases a3
    rename_i a b
    obtain ⟨hok, hb1, hb0⟩ := hok
    obtain ⟨hc, hpos, ra, rb⟩ := inferable_arith (.inr (.inr (.inr hrun))) hok
    simp only [Prog.gradOf, bind_ok] at h
    obtain ⟨⟨g1, s0⟩, h1, ⟨g2, s1⟩, h2, ⟨g3, m0⟩, h3, ⟨g4, n⟩, h4, ⟨g5, q⟩, h5, ⟨g6, m⟩, h6, ⟨g7, m1⟩, h7, ⟨g8, t0⟩, h8, ⟨g9, t1⟩, h9, h⟩ := h
    simp only [Except.ok.injEq, Prod.mk.injEq] at h
    obtain ⟨rfl, rfl⟩ := h
    obtain ⟨G1, I1, E1, S1⟩ := hi.mkShape h1 a1
    obtain ⟨G2, I2, E2, S2⟩ := I1.mkShape h2 (Evals.mono G1 hi.closed a2)
    have G12 := G1.trans G2
    have c0 : CommonShape gv.shape vb.shape yv.shape := by rw [hs]; exact commonShape_left hc.2.1
    have i0 : Inferable gv.shape vb.shape := by rw [hs]; exact inferable_of rb hpos hok.2.2
    obtain ⟨z0, z1, z2⟩ := divOp_spec (x0 := gv) (x1 := vb) c0 (by rw [hs]; exact ne_zero_shape hpos) (fun _ => hb1)
    obtain ⟨G3, I3, E3⟩ := I2.binary (lift_ok.1 h3) (Evals.mono G12 hi.closed hg) (Evals.mono G12 hi.closed a2) (op := .div) z1 (by rw [z2.1]; exact c0) i0 ⟨i0, hb1, hb0⟩ rfl
    have G13 := G12.trans G3
    obtain ⟨G4, I4, E4⟩ := I3.un (lift_ok.1 h4) (Evals.mono G13 hi.closed a1) ⟨hok.2.1, fun h => h.elim, fun _ _ => trivial, .inr (by simp)⟩
    have G14 := G13.trans G4
    obtain ⟨G5, I5, E5⟩ := I4.un (lift_ok.1 h5) (Evals.mono G14 hi.closed a2) ⟨hok.2.2, fun h => h.elim, fun i hi => (by
      rcases lt_or_gt_of_ne (hb0 i hi) with h | h
      · exact .inr ⟨h, -2, by norm_num⟩
      · exact .inl h), .inr (by simp)⟩
    obtain ⟨y0, y1, y2⟩ := mulOp_spec (x0 := EOp.neg.compute va) (x1 := (EOp.pow (-2)).compute vb) (t := yv.shape) hc hpos
    obtain ⟨G6, I6, E6⟩ := I5.binary (lift_ok.1 h6) (Evals.mono G5 I4.closed E4) E5 (op := .mul) y1 (by rw [y2.1]; exact hc) hok hok rfl
    have G56 := G5.trans G6
    have G16 := G14.trans G56
    have c2 : CommonShape y0.shape gv.shape yv.shape := by rw [hs, y2.1]; exact commonShape_left (broadcastsTo_self _)
    have i2 : Inferable y0.shape gv.shape := by rw [hs, y2.1]; exact ⟨.inr (.inr rfl), hpos, hpos⟩
    obtain ⟨u0, u1, u2⟩ := mulOp_spec (x0 := y0) (x1 := gv) c2 hpos
    obtain ⟨G7, I7, E7⟩ := I6.binary (lift_ok.1 h7) E6 (Evals.mono G16 hi.closed hg) (op := .mul) u1 (by rw [u2.1]; exact c2) i2 i2 rfl
    have G17 := G16.trans G7
    have G37 : Grows g3 g7 := (G4.trans G56).trans G7
    have G27 := G3.trans G37
    obtain ⟨G8, I8, w, E8, W8⟩ := I7.reduceTo h8 (Evals.mono G37 I3.closed E3) (Evals.mono (G2.trans G27) I1.closed E1) (S1.mono (G2.trans G27)) (by rw [z2.1]; exact hc.1)
      (by rw [z2.1]; exact ra) (by rw [z2.1]; exact hpos)
    obtain ⟨G9, I9, w', E9, W9⟩ := I8.reduceTo h9 (Evals.mono G8 I7.closed E7) (Evals.mono (G27.trans G8) I2.closed E2) (S2.mono (G27.trans G8)) (by rw [u2.1]; exact hc.2.1)
      (by rw [u2.1]; exact rb) (by rw [u2.1]; exact hpos)
    have G19 := (G17.trans G8).trans G9
    exact ⟨G19, I9, hone ⟨_, _, Evals.mono G19 hi.closed a1, Evals.mono G9 I8.closed E8, W8⟩ (hone ⟨_, _, Evals.mono G19 hi.closed a2, E9, W9⟩ (hnone (by simp)))⟩
  case h_11 op xv =>
    cases ha with | cons a1 a2 =>
    cases a2
    rename_i x
    have hyv : yv = op.compute xv := (Except.ok.inj hrun).symm
    have hys : yv.shape = xv.shape := by rw [hyv]; rfl
    simp only [Prog.gradOf] at h
    cases he : op.grad with
    | none =>
      simp only [he, Except.ok.injEq, Prod.mk.injEq] at h
      obtain ⟨rfl, rfl⟩ := h
      exact ⟨grows_refl _, hi, hnone (by simp)⟩
    | some e =>
      simp only [he, bind_ok] at h
      obtain ⟨⟨g1, t⟩, h1, h⟩ := h
      simp only [Except.ok.injEq, Prod.mk.injEq] at h
      obtain ⟨rfl, rfl⟩ := h
      obtain ⟨o1, o2⟩ := Nd.grad_ok he (s := xv.shape) (fun hd => ⟨ne_zero_shape hok.1, hok.2.1 hd⟩)
      obtain ⟨G1, I1, r, E1, R1⟩ := SInv.buildE (s := xv.shape) rfl hys (hs.trans hys) hok.1 e o1 (fun i hi => by
        have := smooth_grad (hok.2.2.1 i hi) hok.2.2.2 he (gv.get i)
        rw [hyv]
        exact this) hi a1 hy hg h1
      refine ⟨G1, I1, hone ⟨_, _, Evals.mono G1 hi.closed a1, E1, ?_⟩ (hnone (by simp))⟩
      rw [R1.1, o2]; rfl
  case h_12 xv =>
    cases ha with | cons a1 a2 =>
    cases a2
    rename_i x
    have hyv : yv = Nd.sumAll xv := (Except.ok.inj hrun).symm
    have hgs : gv.shape = [] := by rw [hs, hyv]; rfl
    simp only [Prog.gradOf, bind_ok] at h
    obtain ⟨⟨g1, s0⟩, h1, ⟨g2, t⟩, h2, h⟩ := h
    simp only [Except.ok.injEq, Prod.mk.injEq] at h
    obtain ⟨rfl, rfl⟩ := h
    obtain ⟨G1, I1, E1, S1⟩ := hi.mkShape h1 a1
    obtain ⟨G2, I2, E2⟩ := I1.plain (as := [gy, s0]) (op := .sumAllGrad) (vs := [gv, encShape xv.shape]) (v := Nd.sumAllGrad xv.shape gv) (lift_ok.1 h2)
      (.cons (Evals.mono G1 hi.closed hg) (.cons E1 .nil)) (by simp only [POp.run, readShape_enc, bind, Except.bind]) ⟨hgs, _, rfl⟩ (by simpa [fixedIn] using S1)
    exact ⟨G1.trans G2, I2, hone ⟨_, _, Evals.mono (G1.trans G2) hi.closed a1, E2, rfl⟩ (hnone (by simp))⟩
  case h_15 xv =>
    cases ha with | cons a1 a2 =>
    cases a2
    have hyv : yv = xv := (Except.ok.inj hrun).symm
    simp only [Prog.gradOf, Except.ok.injEq, Prod.mk.injEq] at h
    obtain ⟨rfl, rfl⟩ := h
    exact ⟨grows_refl _, hi, hone ⟨_, _, a1, hg, by rw [hs, hyv]⟩ (hnone (by simp))⟩
  case h_16 xv sv =>
    cases ha with | cons a1 a2 =>
    cases a2 with | cons a2 a3 =>
    cases a3
    rename_i x a
    obtain ⟨s, rfl, hb, hk, hpos⟩ := hok
    obtain ⟨w, w1, w2, w3⟩ := maybeReduce_spec xv hb hk hpos
    have e := (run_maybeReduce w1).symm.trans hrun
    cases e
    have hgs : gv.shape = s := hs.trans w2
    obtain ⟨r, e1, e2, _⟩ := maybeBroadcast_spec (x := gv) (t := xv.shape) (by rw [hgs]; exact hb) (by rw [hgs]; exact broadcast_ne_zero hb hk hpos)
    simp only [Prog.gradOf, bind_ok] at h
    obtain ⟨⟨g1, s0⟩, h1, ⟨g2, t⟩, h2, h⟩ := h
    simp only [Except.ok.injEq, Prod.mk.injEq] at h
    obtain ⟨rfl, rfl⟩ := h
    obtain ⟨G1, I1, E1, S1⟩ := hi.mkShape h1 a1
    obtain ⟨G2, I2, E2⟩ := I1.plain (as := [gy, s0]) (op := .maybeBroadcast) (vs := [gv, encShape xv.shape]) (v := r) (lift_ok.1 h2)
      (.cons (Evals.mono G1 hi.closed hg) (.cons E1 .nil)) (run_maybeBroadcast e1) ⟨_, rfl, by rw [hgs]; exact hb, by rw [hgs]; exact hk, hpos⟩ (by simpa [fixedIn] using S1)
    exact ⟨G1.trans G2, I2, hone ⟨_, _, Evals.mono (G1.trans G2) hi.closed a1, E2, e2⟩ (hnone (by simp))⟩
  case h_17 xv sv =>
    cases ha with | cons a1 a2 =>
    cases a2 with | cons a2 a3 =>
    cases a3
    rename_i x a
    obtain ⟨s, rfl, hb, hk, hpos⟩ := hok
    obtain ⟨w, w1, w2, _⟩ := maybeBroadcast_spec (x := xv) (t := s) hb (broadcast_ne_zero hb hk hpos)
    have e := (run_maybeBroadcast w1).symm.trans hrun
    cases e
    have hgs : gv.shape = s := hs.trans w2
    simp only [Prog.gradOf, bind_ok] at h
    obtain ⟨⟨g1, s0⟩, h1, ⟨g2, t⟩, h2, h⟩ := h
    simp only [Except.ok.injEq, Prod.mk.injEq] at h
    obtain ⟨rfl, rfl⟩ := h
    obtain ⟨G1, I1, E1, S1⟩ := hi.mkShape h1 a1
    obtain ⟨G2, I2, w', E2, W2⟩ := I1.reduceTo h2 (Evals.mono G1 hi.closed hg) E1 S1 (by rw [hgs]; exact hb) (by rw [hgs]; exact hk) (by rw [hgs]; exact hpos)
    exact ⟨G1.trans G2, I2, hone ⟨_, _, Evals.mono (G1.trans G2) hi.closed a1, E2, W2⟩ (hnone (by simp))⟩
  case h_18 xv sv =>
    cases ha with | cons a1 a2 =>
    cases a2 with | cons a2 a3 =>
    cases a3
    simp only [Prog.gradOf, bind_ok] at h
    obtain ⟨⟨g1, t⟩, h1, h⟩ := h
    simp only [Except.ok.injEq, Prod.mk.injEq] at h
    obtain ⟨rfl, rfl⟩ := h
    obtain ⟨G1, I1, E1⟩ := hi.plain (as := [gy]) (op := .sumAll) (vs := [gv]) (v := Nd.sumAll gv) (lift_ok.1 h1) (.cons hg .nil) rfl trivial (by simp [fixedIn])
    exact ⟨G1, I1, hone ⟨_, _, Evals.mono G1 hi.closed a1, E1, hok.1.symm⟩ (hnone (by simp))⟩
  case h_19 => exact hok.elim

end

end Verif.Prog
