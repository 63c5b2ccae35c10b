import Verif.Model.UpdateOp
import Verif.Spec.GradHelper
import Verif.Lemmas.GradProps
import Verif.Lemmas.Reachable

/-!
# Lemmas about `grad_helper`
-/

namespace Verif.Gradient
open Verif Verif.Graph Verif.Spec
variable {Op : Type} {O : GradOps Op}

/-! ## Variables -/

/-- Tensors of variables are declared differentiable. -/
def VarsDiff (g : Graph Op) : Prop := ∀ (t : Nat) (n : Node Op), g.nodes[t]? = some n → n.variableId.isSome → n.differentiable = true

theorem VarsDiff.snoc {g g' : Graph Op} (h : VarsDiff g) {n : Node Op} (hn : g'.nodes = g.nodes ++ [n])
    (h1 : n.variableId.isSome → n.differentiable = true) : VarsDiff g' := by
  intro t m hm hv
  rw [hn, getElem?_snoc] at hm
  rcases hm with hm | ⟨_, rfl⟩
  · exact h t m hm hv
  · exact h1 hv

theorem VarsDiff.build {g g' : Graph Op} (h : VarsDiff g) {b : Builder} {op : Op} {t : Nat} (hb : g.build b op = .ok (g', t))
    (h1 : b.variableId = none) : VarsDiff g' := by
  obtain ⟨r, _, _, _, _, e⟩ := build_ok hb
  exact h.snoc e (by simp [Builder.toNode, h1])

theorem VarsDiff.exec {P : Ops Op} {g g' : Graph Op} (h : VarsDiff g) {c : Cmd Op} {t : Nat} (hx : g.exec P c = .ok (g', t)) : VarsDiff g' := by
  cases c with
  | build b op => exact h.build hx rfl
  | var v =>
    rcases variableById_ok hx with ⟨rfl, _⟩ | ⟨_, _, e, _, _⟩
    · exact h
    · exact h.snoc e (by simp [Builder.toNode])
  | placeholder nm s =>
    obtain ⟨g1, hint, _, _, _, hb, hc⟩ := placeholder_ok hx
    have h1 : VarsDiff g1 := by
      rcases hc with ⟨rfl, _⟩ | ⟨ga, sh, c, ha, hb', _⟩
      · exact h
      · exact (h.build ha rfl).build hb' rfl
    exact h1.build hb rfl
  | dependsOn x deps =>
    have hr := controlDependencies_redirect hx
    obtain ⟨nx, i0, rest, hx0, hin, hx', nc, hnc, _, hcv, _⟩ := hr.node
    intro a m hm hv
    by_cases h1 : a = x
    · subst h1; rw [hx'] at hm; cases hm; exact h a nx hx0 hv
    · by_cases h2 : a = g.nodes.length
      · subst h2; rw [hnc] at hm; cases hm; rw [hcv] at hv; cases hv
      · rw [hr.other a h1 h2] at hm; exact h a m hm hv

theorem VarsDiff.execAll {P : Ops Op} : ∀ {cs : List (Cmd Op)} {g g' : Graph Op} {ts : List Nat}, VarsDiff g → g.execAll P cs = .ok (g', ts) → VarsDiff g' := by
  intro cs
  induction cs with
  | nil => intro g g' ts h hx; cases hx; exact h
  | cons c cs ih =>
    intro g g' ts h hx
    obtain ⟨g1, t, ts', h1, h2, _⟩ := execAll_cons.1 hx
    exact ih (h.exec h1) h2

theorem sumAlls_wf : ∀ {ys : List Nat} {g g0 : Graph Op} {sys : List Nat}, WF g → VarsDiff g → sumAlls O g ys = .ok (g0, sys) → WF g0 ∧ VarsDiff g0 := by
  intro ys
  induction ys with
  | nil => intro g g0 sys h h' hs; simp only [sumAlls] at hs; cases hs; exact ⟨h, h'⟩
  | cons y ys ih =>
    intro g g0 sys h h' hs
    simp only [sumAlls, bind_ok] at hs
    obtain ⟨⟨g1, t⟩, h1, ⟨g2, ts⟩, h2, h3⟩ := hs
    cases h3
    unfold sumAll at h1
    exact ih (h.build h1 rfl (by simp)) (h'.build h1 rfl) h2

theorem tensorOf_mono {g g' : Graph Op} (h : Grows g g') {v t : Nat} (ht : TensorOf g v t) : TensorOf g' v t := by
  obtain ⟨n, h1, h2⟩ := ht
  exact ⟨n, h.1 _ _ h1, h2⟩

theorem variableById_facts {g g' : Graph Op} {varOp : Op} {v t : Nat} (hw : WF g) (hd : VarsDiff g) (hg : BpDag g) (h : g.variableById varOp v = .ok (g', t)) :
    Grows g g' ∧ WF g' ∧ VarsDiff g' ∧ BpDag g' ∧ TensorOf g' v t ∧
      (∀ (x : Nat) (n : Node Op), g'.nodes[x]? = some n → g.nodes[x]? = some n ∨ n.shape = none) := by
  have hw' : WF g' := by
    have := hw.exec (O := ⟨varOp, varOp, varOp, fun _ => varOp⟩) (c := .var v) h
    exact this
  have hd' : VarsDiff g' := VarsDiff.exec (P := ⟨varOp, varOp, varOp, fun _ => varOp⟩) hd (c := .var v) h
  rcases variableById_ok h with ⟨rfl, hc⟩ | ⟨_, e1, e2, e3, hl⟩
  · obtain ⟨n, hn, hv⟩ := (hw.cache v t).1 hc
    exact ⟨grows_refl _, hw, hd, hg, ⟨n, hn, hv, hw.leafSource _ _ hn (by simp [Node.isLeafInput, Node.isVariable, hv]), hd _ _ hn (by simp [hv])⟩,
      fun x n h => .inl h⟩
  · have hgr : Grows g g' := by
      refine ⟨fun id n hn => ?_, fun _ => hw'.closed⟩
      rw [e2, List.getElem?_append_left (List.getElem?_eq_some_iff.1 hn).1]
      exact hn
    refine ⟨hgr, hw', hd', ?_, ⟨_, by rw [e2, e1]; simp; rfl, rfl, rfl, rfl⟩, ?_⟩
    · intro a n ha
      rw [e2, getElem?_snoc] at ha
      rcases ha with ha | ⟨_, rfl⟩
      · obtain ⟨h1, h2⟩ := hg a n ha
        refine ⟨h1, fun i hi => ?_⟩
        obtain ⟨m, h3, h4⟩ := h2 i hi
        exact ⟨m, hgr.1 _ _ h3, h4⟩
      · simp [Builder.toNode, Node.bpInputs]
    · intro x n ha
      rw [e2, getElem?_snoc] at ha
      rcases ha with ha | ⟨_, rfl⟩
      · exact .inl ha
      · exact .inr rfl

theorem varTensorsByName_facts {varOp : Op} {ns : Str} : ∀ {order : List (FullName × Nat)} {g g' : Graph Op} {vars : List (Str × Nat)}, WF g → VarsDiff g → BpDag g →
    varTensorsByName varOp ns g order = .ok (g', vars) →
    Grows g g' ∧ BpDag g' ∧ List.Forall₂ (TensorOf g') (idsOf ns order) (vars.map Prod.snd) ∧
      (∀ (x : Nat) (n : Node Op), g'.nodes[x]? = some n → g.nodes[x]? = some n ∨ n.shape = none) := by
  intro order
  induction order with
  | nil =>
    intro g g' vars hw hd hg h
    simp only [varTensorsByName] at h
    cases h
    exact ⟨grows_refl _, hg, .nil, fun x n h => .inl h⟩
  | cons e es ih =>
    intro g g' vars hw hd hg h
    unfold varTensorsByName at h
    by_cases he : e.1.ns = ns
    · rw [if_pos he] at h
      simp only [bind_ok] at h
      obtain ⟨⟨g1, t⟩, h1, ⟨g2, ts⟩, h2, h3⟩ := h
      cases h3
      obtain ⟨a1, a2, a3, a4, a5, a6⟩ := variableById_facts hw hd hg h1
      obtain ⟨b1, b2, b3, b4⟩ := ih a2 a3 a4 h2
      refine ⟨a1.trans b1, b2, ?_, ?_⟩
      · simp only [idsOf, List.filter_cons, he, decide_true, if_true, List.map_cons]
        exact .cons (tensorOf_mono b1 a5) b3
      · intro x n hx
        rcases b4 x n hx with h | h
        · exact a6 x n h
        · exact .inr h
    · rw [if_neg he] at h
      obtain ⟨b1, b2, b3, b4⟩ := ih hw hd hg h
      refine ⟨b1, b2, ?_, b4⟩
      simpa only [idsOf, List.filter_cons, he, decide_false, Bool.false_eq_true, if_false] using b3

theorem varTensorsByName_error {varOp : Op} {ns : Str} : ∀ {order : List (FullName × Nat)} {g : Graph Op} {p : Panic},
    varTensorsByName varOp ns g order = .error p → p = .graphTooLarge := by
  intro order
  induction order with
  | nil => intro g p h; cases h
  | cons e es ih =>
    intro g p h
    unfold varTensorsByName at h
    by_cases he : e.1.ns = ns
    · rw [if_pos he] at h
      simp only [bind, Except.bind] at h
      cases h1 : g.variableById varOp e.2 with
      | error q =>
        rw [h1] at h
        cases h
        unfold variableById at h1
        split at h1
        · cases h1
        · simp only [bind, Except.bind] at h1
          split at h1
          · rename_i h2; cases h1; exact build_error h2 (by simp)
          · cases h1
      | ok v =>
        rw [h1] at h
        dsimp only at h
        split at h
        · rename_i h2; cases h; exact ih h2
        · cases h
    · rw [if_neg he] at h
      exact ih h

theorem tensorOf_nodup {g : Graph Op} {vs ts : List Nat} (h : List.Forall₂ (TensorOf g) vs ts) (hn : vs.Nodup) : ts.Nodup := by
  induction h with
  | nil => exact .nil
  | @cons v t vs ts h1 h2 ih =>
    rw [List.nodup_cons] at hn ⊢
    refine ⟨fun hm => hn.1 ?_, ih hn.2⟩
    have key : ∀ {vs ts : List Nat}, List.Forall₂ (TensorOf g) vs ts → t ∈ ts → v ∈ vs := by
      intro vs ts h
      induction h with
      | nil => intro h; cases h
      | cons a _ ih =>
        intro hm
        rcases List.mem_cons.1 hm with rfl | hm
        · obtain ⟨n, x1, x2, _⟩ := h1
          obtain ⟨n', y1, y2, _⟩ := a
          rw [x1] at y1; cases y1
          rw [x2] at y2; cases y2
          simp
        · exact List.mem_cons_of_mem _ (ih hm)
    exact key h2 hm

/-! ## The marked tensors -/

theorem pushGrad_marked {m m' : GMap} {k t : Nat} (h : pushGrad m k t = .ok m') : ∀ j, Marked m j ↔ Marked m' j := by
  unfold pushGrad at h
  cases hm : m k with
  | none => rw [hm] at h; cases h
  | some info =>
    rw [hm] at h
    cases h
    intro j
    by_cases e : j = k
    · subst e
      constructor
      · rintro ⟨info', a, b⟩
        rw [hm] at a; cases a
        exact ⟨_, insert_self _ _ _, b⟩
      · rintro ⟨info', a, b⟩
        rw [insert_self] at a
        cases a
        exact ⟨info, hm, b⟩
    · simp only [Marked, GMap.insert, e, if_false]

theorem pushAll_marked : ∀ {ps : List (Nat × Nat)} {m m' : GMap}, pushAll ps m = .ok m' → ∀ j, Marked m j ↔ Marked m' j := by
  intro ps
  induction ps with
  | nil => intro m m' h j; cases h; rfl
  | cons p ps ih =>
    intro m m' h j
    obtain ⟨y, gy⟩ := p
    simp only [pushAll, bind_ok] at h
    obtain ⟨m1, h1, h2⟩ := h
    exact (pushGrad_marked h1 j).trans (ih h2 j)

theorem bpLoop_marked {pick : Graph Op → List Nat → Nat} : ∀ {fuel : Nat} {s s' : BpState Op}, bpLoop O pick fuel s = some (.ok s') →
    ∀ j, Marked s.m j ↔ Marked s'.m j := by
  intro fuel
  induction fuel with
  | zero => intro s s' h; cases h
  | succ fuel ih =>
    intro s s' h j
    simp only [bpLoop] at h
    split at h
    · cases h; rfl
    · cases hv : bpVisit O s (pick s.g s.heap) with
      | error p => rw [hv] at h; cases h
      | ok s1 =>
        rw [hv] at h
        refine Iff.trans ?_ (ih h j)
        simp only [bpVisit, bind_ok, lift_ok] at hv
        obtain ⟨⟨g1, m1, gy⟩, h1, n, _, ⟨g2, gxs⟩, _, n2, _, ⟨m2, heap2⟩, h2, h3⟩ := hv
        cases h3
        exact ((gradient_keep h1).2.2 j).trans ((register_facts h2).2.1 j)

/-- The search enters everything that is reached. -/
theorem mapOk_reached {g : Graph Op} {xs ys : List Nat} {m : GMap} (hm : MapOk g xs m) (hy : ∀ y ∈ ys, (m y).isSome) {k : Nat}
    (hk : ReachedFrom g ys k) : (m k).isSome := by
  induction hk with
  | here h => exact hy _ h
  | step _ hd hb ih =>
    obtain ⟨info, hi⟩ := Option.isSome_iff_exists.1 ih
    obtain ⟨_, _, n, hn, hc⟩ := hm _ _ hi
    obtain ⟨i, hi, rfl⟩ := (bpInput_iff hn).1 hb
    exact hc ((isDiff_iff hn).1 hd) i hi

/-! ## The loop over the variables -/

open Classical in
theorem extractSome_fst : ∀ {xs : List Nat} {g g' : Graph Op} {m : GMap} {ps : List (Nat × Nat)}, extractSome O xs g m = .ok (g', ps) →
    ps.map Prod.fst = xs.filter (fun x => decide (Marked m x)) := by
  intro xs
  induction xs with
  | nil => intro g g' m ps h; cases h; rfl
  | cons x xs ih =>
    intro g g' m ps h
    unfold extractSome at h
    have hskip : ¬ Marked m x → extractSome O xs g m = .ok (g', ps) → ps.map Prod.fst = (x :: xs).filter (fun x => decide (Marked m x)) := by
      intro hn h
      rw [List.filter_cons, if_neg (by simpa using hn)]
      exact ih h
    cases hm : m x with
    | none =>
      simp only [hm] at h
      exact hskip (by rintro ⟨info, a, _⟩; rw [hm] at a; cases a) h
    | some info =>
      simp only [hm] at h
      by_cases hp : info.onPath = true
      · rw [if_pos hp] at h
        simp only [bind_ok] at h
        obtain ⟨⟨g1, m1, t⟩, h1, ⟨g2, ts⟩, h2, h3⟩ := h
        cases h3
        rw [List.filter_cons, if_pos (by simpa using ⟨info, hm, hp⟩), List.map_cons, ih h2]
        congr 2
        funext y
        exact decide_eq_decide.2 ((gradient_keep h1).2.2 y).symm
      · rw [if_neg hp] at h
        refine hskip ?_ h
        rintro ⟨info', a, b⟩
        rw [hm] at a; cases a; exact hp b

variable {K : Calculus Op} {g0 : Graph Op} {ys : List Nat}

theorem extractSome_ok (hS : GradSound K g0 (ReachedFrom g0 ys) O.addN O.zeros O.shapeOp O.opGrad) :
    ∀ {xs : List Nat} {g g' : Graph Op} {m : GMap} {ps : List (Nat × Nat)} {C : ∀ k, List (K.T k →+ K.R)}, Grows g0 g → xs.Nodup →
      (∀ x ∈ xs, ∀ info, m x = some info → List.Forall₂ (K.Rep g x) info.gradients (C x)) →
      extractSome O xs g m = .ok (g', ps) →
      Grows g g' ∧ ∀ p ∈ ps, K.Rep g' p.1 p.2 (covOf K m C p.1) := by
  intro xs
  induction xs with
  | nil => intro g g' m ps C _ _ _ h; simp only [extractSome] at h; cases h; exact ⟨grows_refl _, by simp⟩
  | cons x xs ih =>
    intro g g' m ps C hgr hnd hrel h
    rw [List.nodup_cons] at hnd
    unfold extractSome at h
    have hskip : extractSome O xs g m = .ok (g', ps) → Grows g g' ∧ ∀ p ∈ ps, K.Rep g' p.1 p.2 (covOf K m C p.1) :=
      ih hgr hnd.2 (fun y hy => hrel y (by simp [hy]))
    cases hm : m x with
    | none => simp only [hm] at h; exact hskip h
    | some info =>
      simp only [hm] at h
      by_cases hp : info.onPath = true
      · rw [if_pos hp] at h
        simp only [bind_ok] at h
        obtain ⟨⟨g1, m1, t⟩, h1, ⟨g2, ts⟩, h2, h3⟩ := h
        cases h3
        obtain ⟨C1, a1, a2, a3, _⟩ := gradient_ghost hS hgr h1 (C := C) (fun info hm => hrel x (by simp) info hm)
        have hne : ∀ j ∈ xs, j ≠ x := fun j hj e => hnd.1 (e ▸ hj)
        obtain ⟨b1, b2⟩ := ih (hgr.trans a1) hnd.2 (C := C1) (m := m1) (by
          intro y hy info hm
          rw [(a3 y (hne y hy)).2] at hm
          rw [(a3 y (hne y hy)).1]
          exact (hrel y (by simp [hy]) info hm).imp (fun _ _ h => hS.mono hgr a1 h)) h2
        refine ⟨a1.trans b1, fun p hpm => ?_⟩
        rcases List.mem_cons.1 hpm with rfl | hpm
        · have : covOf K m C x = (C x).sum := by simp only [covOf, hm, hp, if_true]
          rw [this]
          exact hS.mono (hgr.trans a1) b1 a2
        · have hx : p.1 ∈ xs := by
            have hf := extractSome_fst h2
            have : p.1 ∈ ts.map Prod.fst := List.mem_map.2 ⟨p, hpm, rfl⟩
            rw [hf] at this
            exact List.mem_of_mem_filter this
          rw [← covOf_congr (K := K) (m := m1) (C := C1) (a3 _ (hne _ hx)).2 (a3 _ (hne _ hx)).1]
          exact b2 p hpm
      · rw [if_neg hp] at h; exact hskip h

theorem extractSome_error : ∀ {xs : List Nat} {g : Graph Op} {m : GMap} {p : GPanic}, GradsExist g m →
    extractSome O xs g m = .error p →
    p = .graph .graphTooLarge ∨ p = .noGradient ∧ ∃ x ∈ xs, Marked m x ∧ ¬ HasGrad m x := by
  intro xs
  induction xs with
  | nil => intro g m p _ h; cases h
  | cons x xs ih =>
    intro g m p hex h
    unfold extractSome at h
    have hskip : extractSome O xs g m = .error p → p = .graph .graphTooLarge ∨ p = .noGradient ∧ ∃ y ∈ x :: xs, Marked m y ∧ ¬ HasGrad m y := by
      intro h
      rcases ih hex h with h | ⟨h1, y, hy, h2⟩
      · exact .inl h
      · exact .inr ⟨h1, y, by simp [hy], h2⟩
    cases hm : m x with
    | none => simp only [hm] at h; exact hskip h
    | some info =>
      simp only [hm] at h
      by_cases hp : info.onPath = true
      · rw [if_pos hp] at h
        simp only [bind, Except.bind] at h
        cases h1 : gradient O g m x with
        | error q =>
          rw [h1] at h
          cases h
          by_cases hh : HasGrad m x
          · exact .inl (gradient_error h1 hex hh)
          · rcases gradient_error' h1 hex (by simp [hm]) with h | h
            · exact .inl h
            · exact .inr ⟨h, x, by simp, ⟨info, hm, hp⟩, hh⟩
        | ok v =>
          obtain ⟨g1, m1, t⟩ := v
          rw [h1] at h
          dsimp only at h
          split at h
          · rename_i h2
            cases h
            obtain ⟨_, b, _, c, d, _⟩ := gradient_facts h1 hex
            rcases ih b h2 with h | ⟨e1, y, hy, e2, e3⟩
            · exact .inl h
            · exact .inr ⟨e1, y, by simp [hy], (d y).2 e2, fun hh => e3 (c y hh)⟩
          · cases h
      · rw [if_neg hp] at h; exact hskip h

/-! ## `grad_helper` as a whole -/

variable {varOp : Op} {pick : Graph Op → List Nat → Nat} {fuel : Nat} {g : Graph Op} {losses : List Nat} {ns : Str} {order : List (FullName × Nat)}

theorem gradHelper_ok {g' : Graph Op} {pairs : List (Nat × Nat)} (h : gradHelper O varOp pick fuel g losses ns order = some (.ok (g', pairs))) :
    ∃ g0 sys g1 vars g2 one m m' s, sumAlls O g losses = .ok (g0, sys) ∧ varTensorsByName varOp ns g0 order = .ok (g1, vars) ∧
      initMap g1 sys (vars.map Prod.snd) fuel = some (.ok m) ∧ scalarOne O g1 = .ok (g2, one) ∧ pushAll (sys.map (fun y => (y, one))) m = .ok m' ∧
      bpLoop O pick fuel ⟨g2, m', sys, []⟩ = some (.ok s) ∧ extractSome O (vars.map Prod.snd) s.g s.m = .ok (g', pairs) := by
  unfold gradHelper computeGradients at h
  split at h
  · cases h
  cases hs : sumAlls O g losses with
  | error p => simp [hs] at h
  | ok v =>
    obtain ⟨g0, sys⟩ := v
    simp only [hs] at h
    cases hv : varTensorsByName varOp ns g0 order with
    | error p => simp [hv] at h
    | ok v =>
      obtain ⟨g1, vars⟩ := v
      simp only [hv] at h
      cases hm : initMap g1 sys (vars.map Prod.snd) fuel with
      | none => simp [hm] at h
      | some e =>
        cases e with
        | error p => simp [hm] at h
        | ok m =>
          simp only [hm] at h
          cases h1 : scalarOne O g1 with
          | error p => simp [h1, lift, bind, Except.bind] at h
          | ok v =>
            obtain ⟨g2, one⟩ := v
            cases hp : pushAll (sys.map (fun y => (y, one))) m with
            | error p => simp [h1, lift, hp, bind, Except.bind] at h
            | ok m' =>
              simp only [h1, lift, hp, bind, Except.bind] at h
              cases hb : bpLoop O pick fuel ⟨g2, m', sys, []⟩ with
              | none => simp [hb] at h
              | some e =>
                cases e with
                | error p => simp [hb] at h
                | ok s =>
                  simp only [hb, Option.some.injEq] at h
                  exact ⟨g0, sys, g1, vars, g2, one, m, m', s, rfl, hv, hm, h1, hp, hb, h⟩

/-- What is known of the graph before back-propagation starts. -/
theorem helper_start (hw : WF g) (hd : VarsDiff g) (hg : BpDag g) {g0 g1 : Graph Op} {sys : List Nat} {vars : List (Str × Nat)}
    (h0 : sumAlls O g losses = .ok (g0, sys)) (h1 : varTensorsByName varOp ns g0 order = .ok (g1, vars)) :
    Summed O.sumAll g losses g0 sys ∧ Grows g0 g1 ∧ BpDag g1 ∧ List.Forall₂ (TensorOf g1) (idsOf ns order) (vars.map Prod.snd) ∧
      (∀ y ∈ sys, IsDiff g1 y ∧ ¬ IsSource g1 y ∧ y < g1.nodes.length) ∧ (∀ x ∈ vars.map Prod.snd, IsSource g1 x ∧ IsDiff g1 x ∧ x ∉ sys) := by
  have hs := sumAlls_ok h0
  obtain ⟨hw0, hd0⟩ := sumAlls_wf hw hd h0
  obtain ⟨a1, a2, a3, _⟩ := varTensorsByName_facts hw0 hd0 (hs.bpDag hg) h1
  have hsys : ∀ y ∈ sys, IsDiff g1 y ∧ ¬ IsSource g1 y ∧ y < g1.nodes.length := by
    intro y hy
    obtain ⟨i, hi, rfl⟩ := List.mem_iff_getElem.1 hy
    have hl := hs.apps.length_eq
    have := (List.forall₂_iff_get.1 hs.apps).2 i (by omega) hi
    obtain ⟨n, b1, b2, b3, b4, _⟩ := this
    have b1' := a1.1 _ _ b1
    refine ⟨⟨n, b1', b4⟩, ?_, (List.getElem?_eq_some_iff.1 b1').1⟩
    rintro ⟨n', c1, c2⟩
    simp only [List.get_eq_getElem] at b1'
    rw [b1'] at c1; cases c1
    rw [b3] at c2; cases c2
  refine ⟨hs, a1, a2, a3, hsys, ?_⟩
  intro x hx
  obtain ⟨i, hi, rfl⟩ := List.mem_iff_getElem.1 hx
  have hl := a3.length_eq
  obtain ⟨n, b1, b2, b3, b4⟩ := (List.forall₂_iff_get.1 a3).2 i (by omega) hi
  exact ⟨⟨n, b1, b3⟩, ⟨n, b1, b4⟩, fun hm => (hsys _ hm).2.1 ⟨n, b1, b3⟩⟩

/-- Which variables get a gradient. -/
theorem helper_marked {sys xs : List Nat} {g1 g2 : Graph Op} (hg : BpDag g1) (hsys : ∀ y ∈ sys, IsDiff g1 y) (hx : ∀ x ∈ xs, IsDiff g1 x)
    {m m' : GMap} {one : Nat} {s : BpState Op} (hm : initMap g1 sys xs fuel = some (.ok m)) (hp : pushAll (sys.map (fun y => (y, one))) m = .ok m')
    (hb : bpLoop O pick fuel ⟨g2, m', sys, []⟩ = some (.ok s)) : ∀ x ∈ xs, Marked s.m x ↔ HasGradient g1 sys x := by
  have hylt : ∀ y ∈ sys, y < g1.nodes.length := fun y hy => by
    obtain ⟨n, hn, _⟩ := hsys y hy
    exact (List.getElem?_eq_some_iff.1 hn).1
  obtain ⟨m0, N, hm0, hin, _, huniq⟩ := initMap_ok (xs := xs) hg hylt
  cases huniq _ _ hm
  intro x hxm
  rw [← bpLoop_marked hb x, ← pushAll_marked hp x]
  constructor
  · rintro ⟨info, a, _⟩
    exact ⟨hx x hxm, initMap_reached hsys hm x (by simp [a])⟩
  · rintro ⟨_, hr⟩
    obtain ⟨info, hi⟩ := Option.isSome_iff_exists.1 (mapOk_reached hm0 hin hr)
    exact ⟨info, hi, (hm0 x info hi).2.1.2 (.here (hx x hxm) hxm)⟩

theorem gradHelper_sound (hw : WF g) (hd : VarsDiff g) (hg : BpDag g) (hpick : PicksMax pick) (hinj : (idsOf ns order).Nodup) {g' : Graph Op}
    {pairs : List (Nat × Nat)} (h : gradHelper O varOp pick fuel g losses ns order = some (.ok (g', pairs))) :
    ∃ g0 sys g1 xs, Summed O.sumAll g losses g0 sys ∧ Grows g0 g1 ∧ List.Forall₂ (TensorOf g1) (idsOf ns order) xs ∧
      (pairs.map Prod.fst).Sublist xs ∧ (∀ x, x ∈ pairs.map Prod.fst ↔ x ∈ xs ∧ ReachedFrom g1 sys x) ∧
      ∀ (K : Calculus Op) (cy σ : ∀ k, K.T k →+ K.R), GradSound K g1 (ReachedFrom g1 sys) O.addN O.zeros O.shapeOp O.opGrad →
        (∀ g2 o, Grows g1 g2 → IsApp g2 o O.one [] → ∀ s ∈ sys, K.Rep g2 s o (cy s)) →
        (∀ s ∈ sys, ∀ y, IsApp g1 s O.sumAll [y] → ∀ t, cy s (K.lin s t) = σ y (t y)) →
        ∃ cov : ∀ k, K.T k →+ K.R, (∀ p ∈ pairs, K.Rep g' p.1 p.2 (cov p.1)) ∧
          ∀ t, MovedBy K g1 xs.toFinset t → (losses.map (fun y => σ y (t y))).sum = (pairs.map (fun p => cov p.1 (t p.1))).sum := by
  classical
  obtain ⟨g0, sys, g1, vars, g2, one, m, m', s, h0, h1, h2, h3, h4, h5, h6⟩ := gradHelper_ok h
  obtain ⟨hs, hgr, hg1, hvar, hsys, hxs⟩ := helper_start hw hd hg h0 h1
  have hmk := helper_marked hg1 (fun y hy => (hsys y hy).1) (fun x hx => (hxs x hx).2.1) h2 h4 h5
  have hnd := tensorOf_nodup hvar hinj
  have hfst := extractSome_fst h6
  refine ⟨g0, sys, g1, vars.map Prod.snd, hs, hgr, hvar, by rw [hfst]; exact List.filter_sublist, ?_, ?_⟩
  · intro x
    rw [hfst, List.mem_filter, decide_eq_true_eq]
    constructor
    · rintro ⟨a, b⟩; exact ⟨a, ((hmk x a).1 b).2⟩
    · rintro ⟨a, b⟩; exact ⟨a, (hmk x a).2 ⟨(hxs x a).2.1, b⟩⟩
  intro K cy σ hS hone hsum
  have hylt : ∀ y ∈ sys, y < g1.nodes.length := fun y hy => (hsys y hy).2.2
  obtain ⟨m0, N, hm0, hin, _, huniq⟩ := initMap_ok (xs := vars.map Prod.snd) hg1 hylt
  cases huniq _ _ h2
  have hz : (sys.map (fun y => (y, one))).map Prod.fst = sys := map_fst
  obtain ⟨hgr2, hone'⟩ := scalarOne_ok h3
  obtain ⟨C0, hI0⟩ := start_inv (K := K) (ps := sys.map (fun y => (y, one))) (cy := cy) hgr2 hm0 (by rw [hz]; exact hs.nodup)
    (by rw [hz]; exact fun y hy => (hsys y hy).1) (by rw [hz]; exact hin) (by rw [hz]; exact initMap_reached (fun y hy => (hsys y hy).1) h2)
    (by
      intro p hp
      obtain ⟨y, hy, rfl⟩ := List.mem_map.1 hp
      exact hone g2 one hgr2 hone' y hy) h4
  rw [hz] at hI0
  obtain ⟨hhe, C, hI⟩ := bpLoop_inv hS hg1 hpick (s := ⟨g2, m', sys, []⟩) hI0 h5
  obtain ⟨_, hrep⟩ := extractSome_ok hS hI.grows hnd (C := C) (fun x _ info hx => (hI.entry x info hx).2.1) h6
  refine ⟨covOf K s.m C, hrep, ?_⟩
  intro t ht
  have hind : Independent g1 sys (vars.map Prod.snd) (vars.map Prod.snd).toFinset :=
    leaf_independent hg1 (by simp) (fun x hx => hxs x (List.mem_toFinset.1 hx))
  have hE := hI.eqn _ hind t ht
  rw [hhe, add_zero] at hE
  simp only [List.toFinset_nil, Finset.empty_union] at hE
  have hR : ∑ k ∈ (vars.map Prod.snd).toFinset, weight K C t k = (pairs.map (fun p => covOf K s.m C p.1 (t p.1))).sum := by
    have e1 : (pairs.map (fun p => covOf K s.m C p.1 (t p.1))).sum = ((pairs.map Prod.fst).map (fun x => covOf K s.m C x (t x))).sum := by
      rw [List.map_map]; rfl
    rw [e1, hfst, ← List.sum_toFinset _ (hnd.filter _), ← Finset.sum_subset (s₁ := ((vars.map Prod.snd).filter (fun x => decide (Marked s.m x))).toFinset)]
    · refine Finset.sum_congr rfl fun x hx => ?_
      rw [List.mem_toFinset, List.mem_filter, decide_eq_true_eq] at hx
      obtain ⟨_, info, a, b⟩ := hx
      unfold covOf
      simp only [a, b, if_true]
      rw [weight, sum_apply]
    · intro x hx
      rw [List.mem_toFinset] at hx ⊢
      exact List.mem_of_mem_filter hx
    · intro x hx hn
      rw [List.mem_toFinset] at hx
      rw [List.mem_toFinset, List.mem_filter, decide_eq_true_eq] at hn
      cases hmx : s.m x with
      | none => simp [weight, hI.empty x hmx]
      | some info =>
        exact absurd ⟨hx, info, hmx, (hI.entry x info hmx).1.2 (.here (hxs x hx).2.1 hx)⟩ hn
  rw [← hR, ← hE]
  have key : ∀ {l l' : List Nat}, (∀ s ∈ l', s ∈ sys) → List.Forall₂ (fun y s => ∃ n, g0.nodes[s]? = some n ∧ n.op = O.sumAll ∧
      n.incoming = [{ id := y }] ∧ n.differentiable = true ∧ n.backpropInputs = none ∧ n.variableId = none ∧ n.placeholderName = none ∧
      n.shape = none) l l' → (l.map (fun y => σ y (t y))).sum = (l'.map (fun s => cy s (t s))).sum := by
    intro l l' hsub h
    induction h with
    | nil => rfl
    | @cons y s l l' h1 _ ih =>
      rw [List.map_cons, List.map_cons, List.sum_cons, List.sum_cons, ih (fun s hs => hsub s (by simp [hs]))]
      obtain ⟨n, a, b, c, _, _, e, f, _⟩ := h1
      have hm := hsub s (by simp)
      have ht' : t s = K.lin s t := by
        refine ht.op s (fun hx => ?_) (hsys s hm).1 (hsys s hm).2.1
        exact (hxs s (List.mem_toFinset.1 hx)).2.2 hm
      rw [ht', hsum s hm y ⟨n, hgr.1 _ _ a, b, by simpa using c, f, e⟩]
  exact key (fun _ h => h) hs.apps

/-- How `grad_helper` ends. -/
theorem gradHelper_total (hw : WF g) (hd : VarsDiff g) (hg : BpDag g) (hpick : PicksMax pick) (hne : losses ≠ []) (hy : ∀ y ∈ losses, y < g.nodes.length) :
    ∃ N, ∀ fuel, N ≤ fuel → gradHelper O varOp pick fuel g losses ns order = some (.error (.graph .graphTooLarge)) ∨
      ∃ g0 sys g1 xs, Summed O.sumAll g losses g0 sys ∧ Grows g0 g1 ∧ List.Forall₂ (TensorOf g1) (idsOf ns order) xs ∧
        (GradWellFormed g1 O.opGrad → ∃ r, gradHelper O varOp pick fuel g losses ns order = some r ∧
          ((∃ res, r = .ok res) ∨ r = .error (.graph .graphTooLarge) ∨ (∃ p, r = .error p ∧ OpGradPanics O g1 sys xs p) ∨
          (r = .error .noGradient ∧ ¬ GradGiven g1 xs O.opGrad))) := by
  cases h0 : sumAlls O g losses with
  | error p =>
    refine ⟨0, fun fuel _ => .inl ?_⟩
    cases sumAlls_error hy h0
    simp [gradHelper, hne, h0]
  | ok v =>
    obtain ⟨g0, sys⟩ := v
    cases h1 : varTensorsByName varOp ns g0 order with
    | error p =>
      refine ⟨0, fun fuel _ => .inl ?_⟩
      cases varTensorsByName_error h1
      simp [gradHelper, hne, h0, h1]
    | ok v =>
      obtain ⟨g1, vars⟩ := v
      obtain ⟨hs, hgr, hg1, hvar, hsys, hxs⟩ := helper_start hw hd hg h0 h1
      obtain ⟨m, N, hm, hin, hN, _⟩ := initMap_ok (xs := vars.map Prod.snd) hg1 (fun y hy => (hsys y hy).2.2)
      refine ⟨max N (g1.nodes.length + 1), fun fuel hf => ?_⟩
      have hmap := hN fuel (by omega)
      cases h2 : scalarOne O g1 with
      | error p =>
        refine .inl ?_
        cases scalarOne_error h2
        simp [gradHelper, hne, h0, h1, computeGradients, hmap, h2, lift, bind, Except.bind]
      | ok v =>
        obtain ⟨g2, one⟩ := v
        obtain ⟨hgr2, n1, hn1, _⟩ := scalarOne_ok h2
        have hz : (sys.map (fun y => (y, one))).map Prod.fst = sys := map_fst
        obtain ⟨m', hm'⟩ := pushAll_total (ps := sys.map (fun y => (y, one))) (m := m) (by rw [hz]; exact hin)
        refine .inr ⟨g0, sys, g1, vars.map Prod.snd, hs, hgr, hvar, fun hW => ?_⟩
        have hst := start_struct (G := GradGiven g1 (vars.map Prod.snd) O.opGrad) (ps := sys.map (fun y => (y, one))) hgr2 hm (by rw [hz]; exact hs.nodup)
          (by rw [hz]; exact fun y hy => (hsys y hy).1) (by rw [hz]; exact hin) (by rw [hz]; exact initMap_reached (fun y hy => (hsys y hy).1) hmap)
          (by
            intro p hp
            obtain ⟨y, _, rfl⟩ := List.mem_map.1 hp
            exact (List.getElem?_eq_some_iff.1 hn1).1) hm'
        rw [hz] at hst
        have hrun : ∀ e, bpLoop O pick fuel ⟨g2, m', sys, []⟩ = some e → gradHelper O varOp pick fuel g losses ns order = some (match e with
            | .error p => .error p
            | .ok s => extractSome O (vars.map Prod.snd) s.g s.m) := by
          intro e he
          unfold gradHelper computeGradients
          rw [if_neg hne]
          simp only [h0, h1, hmap, h2, lift, hm', bind, Except.bind, he]
          cases e <;> rfl
        rcases bpLoop_total (fuel := fuel) hW (fun h => h) hg1 hpick hst (by simp; omega) with ⟨s, h3, h4, h5⟩ | ⟨p, h3, h4⟩
        · refine ⟨_, hrun _ h3, ?_⟩
          dsimp only
          cases hx : extractSome O (vars.map Prod.snd) s.g s.m with
          | ok v => exact .inl ⟨v, rfl⟩
          | error p =>
            rcases extractSome_error h5.exist hx with rfl | ⟨rfl, x, hxm, hmk, hno⟩
            · exact .inr (.inl rfl)
            · refine .inr (.inr (.inr ⟨rfl, fun hG => hno ?_⟩))
              have hmk' := (helper_marked hg1 (fun y hy => (hsys y hy).1) (fun x hx => (hxs x hx).2.1) hmap hm' h3 x hxm).1 hmk
              exact reached_hasGrad (G := GradGiven g1 (vars.map Prod.snd) O.opGrad) @hG h5 h4 hg1 hmk'.2 (.here hmk'.1 hxm)
        · refine ⟨_, hrun _ h3, ?_⟩
          dsimp only
          rcases h4 with rfl | ⟨y, a, b, n, g', gy, c⟩
          · exact .inr (.inl rfl)
          · exact .inr (.inr (.inl ⟨p, rfl, y, n, g', gy, a, b, c⟩))

theorem VarsDiff.reachable {P : Ops Op} (h : Props.Reachable P g) : VarsDiff g := by
  have he : VarsDiff (Graph.empty : Graph Op) := by intro t n hn; simp [Graph.empty] at hn
  induction h with
  | init => exact he
  | cmd _ hx ih => exact ih.exec hx
  | clear _ _ => exact he

theorem idsOf_eq (ns : Str) (order : List (FullName × Nat)) : idsOf ns order = VarEnv.currentVarIds order ns := by
  unfold idsOf VarEnv.currentVarIds
  induction order with
  | nil => rfl
  | cons e es ih =>
    by_cases h : e.1.ns = ns
    · simp only [List.filter_cons, List.filterMap_cons, h, decide_true, if_true, List.map_cons, ih]
    · simp only [List.filter_cons, List.filterMap_cons, h, decide_false, if_false, Bool.false_eq_true, ih]

end Verif.Gradient
