import Verif.Lemmas.GradTotal

/-!
# `grad` and `grad_with_default` as a whole
-/

namespace Verif.Gradient
open Verif Verif.Graph Verif.Spec

variable {Op : Type} {O : GradOps Op} {g : Graph Op} {ys xs gys : List Nat} {pick : Graph Op → List Nat → Nat} {fuel : Nat}

theorem gradWithDefault_ok {r : GradResult Op} (h : gradWithDefault O pick fuel g ys xs gys = some (.ok r)) :
    ys.length = gys.length ∧ ∃ m m' s, initMap g ys xs fuel = some (.ok m) ∧ pushAll (ys.zip gys) m = .ok m' ∧
      bpLoop O pick fuel ⟨g, m', ys, []⟩ = some (.ok s) ∧ extractAll O xs s.g s.m = .ok (r.g, r.grads) ∧ r.log = s.log := by
  unfold gradWithDefault computeGradients at h
  split at h
  · cases h
  · cases hm : initMap g ys xs fuel with
    | none => simp [hm] at h
    | some e =>
      cases e with
      | error p => simp [hm] at h
      | ok m =>
        by_cases hl : ys.length = gys.length
        · simp only [hm, hl, if_true] at h
          cases hp : pushAll (ys.zip gys) m with
          | error p => simp [hp, bind, Except.bind] at h
          | ok m' =>
            simp only [hp, bind, Except.bind] at h
            cases hb : bpLoop O pick fuel ⟨g, m', ys, []⟩ with
            | none => simp [hb] at h
            | some e =>
              cases e with
              | error p => simp [hb] at h
              | ok s =>
                simp only [hb] at h
                cases hx : extractAll O xs s.g s.m with
                | error p => simp [hx] at h
                | ok v =>
                  obtain ⟨g', ts⟩ := v
                  simp only [hx, Option.some.injEq, Except.ok.injEq] at h
                  subst h
                  exact ⟨hl, m, m', s, rfl, hp, hb, hx, rfl⟩
        · simp [hm, hl] at h

theorem grad_ok {r : GradResult Op} (h : grad O pick fuel g ys xs = some (.ok r)) :
    ∃ g0 sys g1 one m m' s, sumAlls O g ys = .ok (g0, sys) ∧ initMap g0 sys xs fuel = some (.ok m) ∧
      scalarOne O g0 = .ok (g1, one) ∧ pushAll (sys.map (fun y => (y, one))) m = .ok m' ∧
      bpLoop O pick fuel ⟨g1, m', sys, []⟩ = some (.ok s) ∧ extractAll O xs s.g s.m = .ok (r.g, r.grads) ∧ r.log = s.log := by
  unfold grad computeGradients at h
  split at h
  · cases h
  · cases hs : sumAlls O g ys with
    | error p => simp [hs] at h
    | ok v =>
      obtain ⟨g0, sys⟩ := v
      simp only [hs] at h
      cases hm : initMap g0 sys xs fuel with
      | none => simp [hm] at h
      | some e =>
        cases e with
        | error p => simp [hm] at h
        | ok m =>
          simp only [hm] at h
          cases h1 : scalarOne O g0 with
          | error p => simp [h1, lift, bind, Except.bind] at h
          | ok v =>
            obtain ⟨g1, one⟩ := v
            cases hp : pushAll (sys.map (fun y => (y, one))) m with
            | error p => simp [h1, lift, hp, bind, Except.bind] at h
            | ok m' =>
              simp only [h1, lift, hp, bind, Except.bind] at h
              cases hb : bpLoop O pick fuel ⟨g1, m', sys, []⟩ with
              | none => simp [hb] at h
              | some e =>
                cases e with
                | error p => simp [hb] at h
                | ok s =>
                  simp only [hb] at h
                  cases hx : extractAll O xs s.g s.m with
                  | error p => simp [hx] at h
                  | ok v =>
                    obtain ⟨g', ts⟩ := v
                    simp only [hx, Option.some.injEq, Except.ok.injEq] at h
                    subst h
                    exact ⟨g0, sys, g1, one, m, m', s, rfl, hm, h1, hp, hb, hx, rfl⟩

theorem zip_fst {l l' : List Nat} (h : l.length = l'.length) : (l.zip l').map Prod.fst = l := by
  rw [List.map_fst_zip (by omega)]

theorem map_fst {l : List Nat} {o : Nat} : (l.map (fun y => (y, o))).map Prod.fst = l := by
  rw [List.map_map]; simp [Function.comp_def]

/-! ## The `sum_all` tensors -/

theorem build_new {g g' : Graph Op} {b : Builder} {op : Op} {id : Nat} (h : g.build b op = .ok (g', id)) :
    id = g.nodes.length ∧ g'.nodes.length = g.nodes.length + 1 ∧ ∃ r, g.buildRank b.inNodes = .ok r ∧ g'.nodes = g.nodes ++ [b.toNode op r] := by
  unfold Graph.build at h
  cases hr : g.buildRank b.inNodes with
  | error p => simp [hr, bind, Except.bind] at h
  | ok r =>
    simp only [hr, bind, Except.bind, Graph.install] at h
    split at h
    · cases h
    · simp only [Except.ok.injEq, Prod.mk.injEq] at h
      obtain ⟨rfl, rfl⟩ := h
      exact ⟨rfl, by simp, r, rfl, rfl⟩

theorem buildRank_lt {g : Graph Op} : ∀ {l : List Incoming} {r : Nat}, g.buildRank l = .ok r →
    ∀ i ∈ l, ∃ n, g.nodes[i.id]? = some n ∧ n.topoRank < r := by
  intro l
  induction l with
  | nil => intro r _ i hi; cases hi
  | cons j l ih =>
    intro r h i hi
    simp only [Graph.buildRank, bind_ok] at h
    obtain ⟨n, hn, r', hr', h⟩ := h
    simp only [Except.ok.injEq] at h
    rcases List.mem_cons.1 hi with rfl | hi
    · exact ⟨n, access_some.1 hn, by omega⟩
    · obtain ⟨m, h1, h2⟩ := ih hr' i hi
      exact ⟨m, h1, by omega⟩

/-- A tensor without back-propagation inputs of its own keeps the graph a dag. -/
theorem build_bpDag {g g' : Graph Op} {b : Builder} {op : Op} {id : Nat} (hb : b.backpropInputs = none) (hg : BpDag g)
    (h : g.build b op = .ok (g', id)) : BpDag g' := by
  obtain ⟨_, _, r, hr, hn⟩ := build_new h
  have hgr := build_grows h
  intro a n ha
  rw [hn, List.getElem?_append] at ha
  split at ha
  · obtain ⟨h1, h2⟩ := hg a n ha
    refine ⟨h1, fun i hi => ?_⟩
    obtain ⟨m, h3, h4⟩ := h2 i hi
    exact ⟨m, hgr.1 _ _ h3, h4⟩
  · rename_i hlt
    cases hk : a - g.nodes.length with
    | succ k => rw [hk] at ha; simp at ha
    | zero =>
      rw [hk] at ha
      simp only [List.getElem?_cons_zero, Option.some.injEq] at ha
      subst ha
      simp only [Node.bpInputs, Builder.toNode, hb, Option.getD_none]
      refine ⟨fun h => h, fun i hi => ?_⟩
      obtain ⟨m, h3, h4⟩ := buildRank_lt hr i hi
      exact ⟨m, hgr.1 _ _ h3, h4⟩

theorem _root_.Verif.Spec.Summed.isDiff {g0 : Graph Op} {sys : List Nat} (hs : Summed O.sumAll g ys g0 sys) : ∀ s ∈ sys, IsDiff g0 s := by
  have key : ∀ {l l' : List Nat}, List.Forall₂ (fun y s => ∃ n, g0.nodes[s]? = some n ∧ n.op = O.sumAll ∧ n.incoming = [{ id := y }] ∧
      n.differentiable = true ∧ n.backpropInputs = none ∧ n.variableId = none ∧ n.placeholderName = none ∧ n.shape = none) l l' →
      ∀ s ∈ l', IsDiff g0 s := by
    intro l l' h
    induction h with
    | nil => intro s hs; cases hs
    | cons h1 _ ih =>
      intro s hs
      rcases List.mem_cons.1 hs with rfl | hs
      · obtain ⟨n, a, _, _, b, _⟩ := h1
        exact ⟨n, a, b⟩
      · exact ih s hs
  exact key hs.apps

theorem sumAlls_ok : ∀ {ys : List Nat} {g g0 : Graph Op} {sys : List Nat}, sumAlls O g ys = .ok (g0, sys) → Summed O.sumAll g ys g0 sys := by
  intro ys
  induction ys with
  | nil =>
    intro g g0 sys h
    simp only [sumAlls] at h
    cases h
    exact ⟨grows_refl _, id, .nil, by simp, by simp⟩
  | cons y ys ih =>
    intro g g0 sys h
    simp only [sumAlls, bind_ok] at h
    obtain ⟨⟨g1, t⟩, h1, ⟨g2, ts⟩, h2, h3⟩ := h
    cases h3
    dsimp only at h2
    have hI := ih h2
    unfold sumAll at h1
    obtain ⟨e, hl, r, hr, hn⟩ := build_new h1
    have hgr := build_grows h1
    have ht : g1.nodes[t]? = some (({ inNodes := [{ id := y }] } : Builder).toNode O.sumAll r) := by
      rw [hn, e]; simp
    have h2len : g1.nodes.length ≤ g2.nodes.length := by
      have := hI.grows.1 t _ ht
      have h := (List.getElem?_eq_some_iff.1 this).1
      omega
    refine ⟨hgr.trans hI.grows, fun h => hI.bpDag (build_bpDag rfl h h1), .cons ?_ hI.apps, ?_, ?_⟩
    · exact ⟨_, hI.grows.1 _ _ ht, rfl, rfl, rfl, rfl, rfl, rfl, rfl⟩
    · intro id
      rw [List.mem_cons, hI.fresh]
      dsimp only
      omega
    · rw [List.nodup_cons, hI.fresh]
      exact ⟨by omega, hI.nodup⟩

theorem sumAlls_error : ∀ {ys : List Nat} {g : Graph Op} {p : Panic}, (∀ y ∈ ys, y < g.nodes.length) → sumAlls O g ys = .error p →
    p = .graphTooLarge := by
  intro ys
  induction ys with
  | nil => intro g p _ h; cases h
  | cons y ys ih =>
    intro g p hy h
    simp only [sumAlls, bind, Except.bind] at h
    cases h1 : sumAll O g y with
    | error q =>
      rw [h1] at h
      cases h
      unfold sumAll at h1
      exact build_error h1 (by simpa using hy y (by simp))
    | ok v =>
      obtain ⟨g1, t⟩ := v
      rw [h1] at h
      dsimp only at h
      have hgr : Grows g g1 := build_grows h1
      cases h2 : sumAlls O g1 ys with
      | error q =>
        rw [h2] at h; cases h
        exact ih (fun z hz => grows_lt hgr (hy z (by simp [hz]))) h2
      | ok v => rw [h2] at h; cases h

/-! ## Partial correctness -/

/-- `grad_with_default`: soundness. -/
theorem gradWithDefault_sound (hg : BpDag g) (hpick : PicksMax pick) (hnd : ys.Nodup) (hd : ∀ y ∈ ys, IsDiff g y) (hxs : xs.Nodup)
    (hlt : ∀ x ∈ xs, x < g.nodes.length) {r : GradResult Op} (h : gradWithDefault O pick fuel g ys xs gys = some (.ok r))
    {K : Calculus Op} (hS : GradSound K g (ReachedFrom g ys) O.addN O.zeros O.shapeOp O.opGrad) {cy : ∀ k, K.T k →+ K.R}
    (hrep : List.Forall₂ (fun y gy => K.Rep g y gy (cy y)) ys gys) :
    Grows g r.g ∧
    (r.log.Nodup ∧ (∀ k ∈ r.log, IsDiff g k ∧ (k ∈ ys ∨ Leads g xs k)) ∧ r.log.Pairwise (fun a b => rk g b ≤ rk g a)) ∧
    ∃ cov : ∀ k, K.T k →+ K.R, List.Forall₂ (fun x t => K.Rep r.g x t (cov x)) xs r.grads ∧
      ∀ X, Independent g ys xs X → ∀ t, MovedBy K g X t → (ys.map (fun y => cy y (t y))).sum = ∑ x ∈ X, cov x (t x) := by
  obtain ⟨hl, m, m', s, h1, h2, h3, h4, h5⟩ := gradWithDefault_ok h
  have hylt : ∀ y ∈ ys, y < g.nodes.length := fun y hy => by
    obtain ⟨n, hn, _⟩ := hd y hy
    exact (List.getElem?_eq_some_iff.1 hn).1
  obtain ⟨m0, N, hm0, hin, _, huniq⟩ := initMap_ok (xs := xs) hg hylt
  cases huniq _ _ h1
  have hz := zip_fst hl
  have := backprop_ok (ps := ys.zip gys) (by rw [hz]; exact hS) hg hpick (grows_refl g) hm0 (by rw [hz]; exact hnd) (by rw [hz]; exact hd)
    (by rw [hz]; exact hin) (by rw [hz]; exact initMap_reached hd h1) (cy := cy) (by
      have key : ∀ {l l' : List Nat}, List.Forall₂ (fun y gy => K.Rep g y gy (cy y)) l l' → ∀ p ∈ l.zip l', K.Rep g p.1 p.2 (cy p.1) := by
        intro l l' h
        induction h with
        | nil => intro p hp; cases hp
        | cons h1 _ ih =>
          intro p hp
          rcases List.mem_cons.1 hp with rfl | hp
          · exact h1
          · exact ih p hp
      exact key hrep) h2 hxs hlt (by rw [hz]; exact h3) h4
  rw [hz] at this
  rw [h5]
  exact this

/-- `grad`: soundness, for the graph `g0` with the `sum_all` tensors `sys`. -/
theorem grad_sound (hg : BpDag g) (hpick : PicksMax pick) (hxs : xs.Nodup) (hlt : ∀ x ∈ xs, x < g.nodes.length)
    {r : GradResult Op} (h : grad O pick fuel g ys xs = some (.ok r)) :
    ∃ g0 sys, Summed O.sumAll g ys g0 sys ∧
      (∀ {K : Calculus Op} {cy : ∀ k, K.T k →+ K.R}, GradSound K g0 (ReachedFrom g0 sys) O.addN O.zeros O.shapeOp O.opGrad →
        (∀ g1 o, Grows g0 g1 → IsApp g1 o O.one [] → ∀ s ∈ sys, K.Rep g1 s o (cy s)) →
        Grows g0 r.g ∧ (r.log.Nodup ∧ (∀ k ∈ r.log, IsDiff g0 k ∧ (k ∈ sys ∨ Leads g0 xs k)) ∧ r.log.Pairwise (fun a b => rk g0 b ≤ rk g0 a)) ∧
        ∃ cov : ∀ k, K.T k →+ K.R, List.Forall₂ (fun x t => K.Rep r.g x t (cov x)) xs r.grads ∧
          ∀ X, Independent g0 sys xs X → ∀ t, MovedBy K g0 X t → (sys.map (fun y => cy y (t y))).sum = ∑ x ∈ X, cov x (t x)) := by
  obtain ⟨g0, sys, g1, one, m, m', s, h0, h1, h2, h3, h4, h5, h6⟩ := grad_ok h
  have hs := sumAlls_ok h0
  have hg0 := hs.bpDag hg
  have hd := hs.isDiff
  have hylt : ∀ y ∈ sys, y < g0.nodes.length := fun y hy => by
    obtain ⟨n, hn, _⟩ := hd y hy
    exact (List.getElem?_eq_some_iff.1 hn).1
  obtain ⟨m0, N, hm0, hin, _, huniq⟩ := initMap_ok (xs := xs) hg0 hylt
  cases huniq _ _ h1
  have hz : (sys.map (fun y => (y, one))).map Prod.fst = sys := map_fst
  obtain ⟨hgr1, hone⟩ := scalarOne_ok h2
  refine ⟨g0, sys, hs, ?_⟩
  intro K cy hS hcy
  have := backprop_ok (ps := sys.map (fun y => (y, one))) (by rw [hz]; exact hS) hg0 hpick hgr1 hm0 (by rw [hz]; exact hs.nodup) (by rw [hz]; exact hd)
    (by rw [hz]; exact hin) (by rw [hz]; exact initMap_reached hd h1) (cy := cy) (by
      intro p hp
      obtain ⟨y, hy, rfl⟩ := List.mem_map.1 hp
      exact hcy g1 one hgr1 hone y hy) h3 hxs (fun x hx => grows_lt hs.grows (hlt x hx)) (by rw [hz]; exact h4) h5
  rw [hz] at this
  rw [h6]
  exact this

/-! ## Totality -/

/-- What `grad` can end with on the graph `g0` (objectives `ys`). -/
def Ends (O : GradOps Op) (g0 : Graph Op) (ys xs : List Nat) (r : Except GPanic (GradResult Op)) : Prop :=
  (∃ res, r = .ok res ∧ Grows g0 res.g ∧
    List.Forall₂ (fun x t => ¬ (ReachedFrom g0 ys x ∧ IsDiff g0 x) → ZerosLike O.zeros O.shapeOp res.g x t) xs res.grads) ∨
  (∃ p, r = .error p ∧ (LoopPanic O g0 ys xs p ∨ (p = .noGradient ∧ ¬ GradGiven g0 xs O.opGrad)))

/-- From the map to the end. -/
theorem backprop_total (hW : GradWellFormed g O.opGrad) (hg : BpDag g) (hpick : PicksMax pick)
    {g1 : Graph Op} (hgr : Grows g g1) {m m' : GMap} (hm : MapOk g xs m) {ps : List (Nat × Nat)} (hnd : (ps.map Prod.fst).Nodup)
    (hd : ∀ y ∈ ps.map Prod.fst, IsDiff g y) (hin : ∀ y ∈ ps.map Prod.fst, (m y).isSome)
    (hreach : ∀ k, (m k).isSome → ReachedFrom g (ps.map Prod.fst) k) (hrep : ∀ p ∈ ps, p.2 < g1.nodes.length)
    (hsh : ∀ (x : Nat) (n : Node Op) s, g.nodes[x]? = some n → n.shape = some s → s < g.nodes.length)
    (h : pushAll ps m = .ok m') (hlt : ∀ x ∈ xs, x < g.nodes.length) (hf : g.nodes.length < fuel) :
    ∃ e, bpLoop O pick fuel ⟨g1, m', ps.map Prod.fst, []⟩ = some e ∧
      Ends O g (ps.map Prod.fst) xs (match e with
        | .error p => .error p
        | .ok s => match extractAll O xs s.g s.m with
          | .error p => .error p
          | .ok (g', ts) => .ok ⟨g', ts, s.log⟩) := by
  have hst := start_struct (G := GradGiven g xs O.opGrad) hgr hm hnd hd hin hreach hrep h
  rcases bpLoop_total hW (fun h => h) hg hpick hst (by simpa using hf) with ⟨s, h1, h2, h3⟩ | ⟨p, h1, h2⟩
  · refine ⟨_, h1, ?_⟩
    dsimp only
    obtain ⟨C, hI⟩ := h3.inv
    cases hx : extractAll O xs s.g s.m with
    | ok v =>
      obtain ⟨g', ts⟩ := v
      obtain ⟨a, b⟩ := extractAll_zeros hx
      refine .inl ⟨_, rfl, hI.grows.trans a, ?_⟩
      refine b.imp fun x t hxt hno => hxt ?_
      rintro ⟨info, c1, c2⟩
      obtain ⟨d1, _⟩ := hI.entry x info c1
      refine hno ⟨h3.reached x (by simp [c1]), ?_⟩
      cases d1.1 c2 with
      | here a _ => exact a
      | there a _ _ => exact a
    | error p =>
      refine .inr ⟨p, rfl, ?_⟩
      by_cases hG : GradGiven g xs O.opGrad
      · refine .inl (.inl (extractAll_error hI.grows h3.exist hsh hlt ?_ hx))
        rintro x hxm ⟨info, c1, c2⟩
        exact reached_hasGrad (G := GradGiven g xs O.opGrad) @hG h3 h2 hg (h3.reached x (by simp [c1])) ((hI.entry x info c1).1.1 c2)
      · have := extractAll_error' hI.grows h3.exist hsh hlt hx
        rcases this with h | h
        · exact .inl (.inl h)
        · exact .inr ⟨h, hG⟩
  · exact ⟨_, h1, .inr ⟨p, rfl, .inl h2⟩⟩

theorem gradWithDefault_total (hW : GradWellFormed g O.opGrad) (hg : BpDag g) (hpick : PicksMax pick) (hne : ys ≠ []) (hnd : ys.Nodup)
    (hd : ∀ y ∈ ys, IsDiff g y) (hl : ys.length = gys.length) (hgy : ∀ t ∈ gys, t < g.nodes.length)
    (hsh : ∀ (x : Nat) (n : Node Op) s, g.nodes[x]? = some n → n.shape = some s → s < g.nodes.length)
    (hlt : ∀ x ∈ xs, x < g.nodes.length) :
    ∃ N, ∀ fuel, N ≤ fuel → ∃ r, gradWithDefault O pick fuel g ys xs gys = some r ∧ Ends O g ys xs r := by
  have hylt : ∀ y ∈ ys, y < g.nodes.length := fun y hy => by
    obtain ⟨n, hn, _⟩ := hd y hy
    exact (List.getElem?_eq_some_iff.1 hn).1
  obtain ⟨m, N, hm, hin, hN, _⟩ := initMap_ok (xs := xs) hg hylt
  refine ⟨max N (g.nodes.length + 1), fun fuel hf => ?_⟩
  have hz := zip_fst hl
  have hmap := hN fuel (by omega)
  obtain ⟨m', hm'⟩ := pushAll_total (ps := ys.zip gys) (m := m) (by rw [hz]; exact hin)
  obtain ⟨e, h1, h2⟩ := backprop_total (fuel := fuel) (ps := ys.zip gys) hW hg hpick (grows_refl g) hm (by rw [hz]; exact hnd)
    (by rw [hz]; exact hd) (by rw [hz]; exact hin) (by rw [hz]; exact initMap_reached hd hmap)
    (fun p hp => hgy _ (List.of_mem_zip (show (p.1, p.2) ∈ _ from hp)).2) hsh hm' hlt (by omega)
  rw [hz] at h1 h2
  refine ⟨_, ?_, h2⟩
  unfold gradWithDefault computeGradients
  rw [if_neg hne]
  simp only [hmap, hl, if_true, hm', bind, Except.bind, h1]
  cases e with
  | error p => rfl
  | ok s =>
    dsimp only
    cases extractAll O xs s.g s.m with
    | error p => rfl
    | ok v => rfl

theorem grad_total (hg : BpDag g) (hpick : PicksMax pick) (hne : ys ≠ []) (hy : ∀ y ∈ ys, y < g.nodes.length)
    (hsh : ∀ (x : Nat) (n : Node Op) s, g.nodes[x]? = some n → n.shape = some s → s < g.nodes.length)
    (hlt : ∀ x ∈ xs, x < g.nodes.length) :
    ∃ N, ∀ fuel, N ≤ fuel → grad O pick fuel g ys xs = some (.error (.graph .graphTooLarge)) ∨
      ∃ g0 sys, Summed O.sumAll g ys g0 sys ∧ (GradWellFormed g0 O.opGrad → ∃ r, grad O pick fuel g ys xs = some r ∧ Ends O g0 sys xs r) := by
  cases h0 : sumAlls O g ys with
  | error p =>
    refine ⟨0, fun fuel _ => .inl ?_⟩
    cases sumAlls_error hy h0
    simp [grad, hne, h0]
  | ok v =>
    obtain ⟨g0, sys⟩ := v
    have hs := sumAlls_ok h0
    have hg0 := hs.bpDag hg
    have hd := hs.isDiff
    have hylt : ∀ y ∈ sys, y < g0.nodes.length := fun y hy => by
      obtain ⟨n, hn, _⟩ := hd y hy
      exact (List.getElem?_eq_some_iff.1 hn).1
    obtain ⟨m, N, hm, hin, hN, _⟩ := initMap_ok (xs := xs) hg0 hylt
    refine ⟨max N (g0.nodes.length + 1), fun fuel hf => ?_⟩
    have hmap := hN fuel (by omega)
    cases h1 : scalarOne O g0 with
    | error p =>
      refine .inl ?_
      cases scalarOne_error h1
      simp [grad, hne, h0, computeGradients, hmap, h1, lift, bind, Except.bind]
    | ok v =>
      obtain ⟨g1, one⟩ := v
      obtain ⟨hgr1, n1, hn1, _⟩ := scalarOne_ok h1
      have hz : (sys.map (fun y => (y, one))).map Prod.fst = sys := map_fst
      obtain ⟨m', hm'⟩ := pushAll_total (ps := sys.map (fun y => (y, one))) (m := m) (by rw [hz]; exact hin)
      have hsh0 : ∀ (x : Nat) (n : Node Op) s, g0.nodes[x]? = some n → n.shape = some s → s < g0.nodes.length := by
        intro x n s hx hs'
        by_cases hxl : x < g.nodes.length
        · have hx0 := List.getElem?_eq_getElem hxl
          have := hs.grows.1 _ _ hx0
          rw [hx] at this; cases this
          exact grows_lt hs.grows (hsh x _ s hx0 hs')
        · have hmem : x ∈ sys := (hs.fresh x).2 ⟨by omega, (List.getElem?_eq_some_iff.1 hx).1⟩
          have key : ∀ {l l' : List Nat}, List.Forall₂ (fun y s => ∃ n, g0.nodes[s]? = some n ∧ n.op = O.sumAll ∧
              n.incoming = [{ id := y }] ∧ n.differentiable = true ∧ n.backpropInputs = none ∧ n.variableId = none ∧
              n.placeholderName = none ∧ n.shape = none) l l' → x ∈ l' → n.shape = none := by
            intro l l' h
            induction h with
            | nil => intro h; cases h
            | cons h1 _ ih =>
              intro hmem
              rcases List.mem_cons.1 hmem with rfl | h
              · obtain ⟨n', a, _, _, _, _, _, _, b⟩ := h1
                rw [hx] at a; cases a; exact b
              · exact ih h
          rw [key hs.apps hmem] at hs'
          cases hs'
      refine .inr ⟨g0, sys, hs, fun hW => ?_⟩
      obtain ⟨e, h2, h3⟩ := backprop_total (fuel := fuel) (ps := sys.map (fun y => (y, one))) hW hg0 hpick hgr1 hm
        (by rw [hz]; exact hs.nodup) (by rw [hz]; exact hd) (by rw [hz]; exact hin) (by rw [hz]; exact initMap_reached hd hmap)
        (fun p hp => by
          obtain ⟨y, hy, rfl⟩ := List.mem_map.1 hp
          exact (List.getElem?_eq_some_iff.1 hn1).1) hsh0 hm' (fun x hx => grows_lt hs.grows (hlt x hx)) (by omega)
      rw [hz] at h2 h3
      refine ⟨_, ?_, h3⟩
      unfold grad computeGradients
      rw [if_neg hne]
      simp only [h0, hmap, h1, lift, hm', bind, Except.bind, h2]
      cases e with
      | error p => rfl
      | ok s =>
        dsimp only
        cases extractAll O xs s.g s.m with
        | error p => rfl
        | ok v => rfl

end Verif.Gradient
