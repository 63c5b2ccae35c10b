import Verif.Lemmas.GraphHistory
import Verif.Lemmas.Optimizers
import Verif.Lemmas.OptimizerState

/-! The update tensors built by `compute_updates`. -/

namespace Verif.Opt
open Verif Verif.Spec Verif.Eval Verif.Graph Relation
variable {Op A : Type}

/-- `g'` arises from `g` by builder calls other than `depends_on`. -/
def Grows (O : Ops Op) (g g' : Graph Op) : Prop := ∃ cs ids, g.execAll O cs = .ok (g', ids) ∧ NoDependsOn cs

theorem Grows.refl {O : Ops Op} (g : Graph Op) : Grows O g g := ⟨[], [], rfl, by simp [NoDependsOn]⟩

theorem Grows.trans {O : Ops Op} {a b c : Graph Op} (h1 : Grows O a b) (h2 : Grows O b c) : Grows O a c := by
  obtain ⟨cs, ids, h1, n1⟩ := h1
  obtain ⟨cs', ids', h2, n2⟩ := h2
  refine ⟨cs ++ cs', ids ++ ids', execAll_append.2 ⟨b, ids, ids', h1, h2, rfl⟩, ?_⟩
  intro x deps hx
  rcases List.mem_append.1 hx with hx | hx
  · exact n1 x deps hx
  · exact n2 x deps hx

theorem Grows.build {O : Ops Op} {g g' : Graph Op} {ins : List Incoming} {o : Op} {t : Nat}
    (h : g.build { inNodes := ins } o = .ok (g', t)) : Grows O g g' :=
  ⟨[.build { inNodes := ins } o], [t], by simp [execAll, exec, h, bind, Except.bind], by simp [NoDependsOn]⟩

theorem Grows.var {O : Ops Op} {g g' : Graph Op} {v t : Nat} (h : g.variableById O.varOp v = .ok (g', t)) : Grows O g g' :=
  ⟨[.var v], [t], by simp [execAll, exec, h, bind, Except.bind], by simp [NoDependsOn]⟩

theorem dependsOnTargets_nil {cs : List (Cmd Op)} (h : NoDependsOn cs) : dependsOnTargets cs = [] := by
  induction cs with
  | nil => rfl
  | cons c cs ih =>
    have hcs : NoDependsOn cs := fun x deps hx => h x deps (by simp [hx])
    cases c with
    | dependsOn x deps => exact absurd (by simp) (h x deps)
    | build b op => exact ih hcs
    | var v => exact ih hcs
    | placeholder nm s => exact ih hcs

theorem Grows.node {O : Ops Op} {g g' : Graph Op} (h : Grows O g g') {id : Nat} {n : Node Op} (hn : g.nodes[id]? = some n) :
    g'.nodes[id]? = some n := by
  obtain ⟨cs, ids, h, hno⟩ := h
  obtain ⟨n', hn', rfl | ⟨hd, _⟩⟩ := execAll_frame h hn
  · exact hn'
  · rw [dependsOnTargets_nil hno] at hd; cases hd

theorem Grows.wf {O : Ops Op} {g g' : Graph Op} (h : Grows O g g') (hw : WF g) : WF g' := by
  obtain ⟨cs, ids, h, _⟩ := h
  exact hw.execAll h

theorem Grows.size {O : Ops Op} {g g' : Graph Op} (h : Grows O g g') : g.nodes.length ≤ g'.nodes.length := by
  obtain ⟨cs, ids, h, _⟩ := h
  exact execAll_size h

/-- Tensor `t` is the tensor of variable `v`. -/
def VarTensor (g : Graph Op) (t v : Nat) : Prop := ∃ n, g.nodes[t]? = some n ∧ n.variableId = some v

theorem Grows.varTensor {O : Ops Op} {g g' : Graph Op} (h : Grows O g g') {t v : Nat} (ht : VarTensor g t v) : VarTensor g' t v := by
  obtain ⟨n, hn, hv⟩ := ht
  exact ⟨n, h.node hn, hv⟩

theorem VarTensor.mutVar {g : Graph Op} (hw : WF g) {t v : Nat} (h : VarTensor g t v) : MutVar g { id := t, allowMut := true } v := by
  obtain ⟨n, hn, hv⟩ := h
  refine ⟨rfl, n, hn, ?_, hv⟩
  rcases hw.notBoth _ _ hn with h | h
  · exact h
  · rw [hv] at h; cases h

theorem VarTensor.notOp {g : Graph Op} {t v : Nat} (h : VarTensor g t v) : ¬ IsOp g t := by
  obtain ⟨n, hn, hv⟩ := h
  rintro ⟨m, hm, _, h2⟩
  rw [hn] at hm; cases hm; rw [hv] at h2; cases h2

/-- New op tensors of `g'` are among `us`. -/
def NewOps (g g' : Graph Op) (us : List Nat) : Prop := ∀ a, g.nodes.length ≤ a → IsOp g' a → a ∈ us

theorem variableById_grows {O : Ops Op} {g g' : Graph Op} (hw : WF g) {v t : Nat} (h : g.variableById O.varOp v = .ok (g', t)) :
    VarTensor g' t v ∧ NewOps g g' [] := by
  rcases variableById_ok h with ⟨rfl, h1⟩ | ⟨_, rfl, h2, _⟩
  · refine ⟨(hw.cache v t).1 h1, ?_⟩
    rintro a ha ⟨n, hn, _⟩
    have := (List.getElem?_eq_some_iff.1 hn).1
    omega
  · refine ⟨⟨_, by rw [h2]; simp; rfl, rfl⟩, ?_⟩
    rintro a ha ⟨n, hn, _, h3⟩
    rw [h2, getElem?_snoc] at hn
    rcases hn with hn | ⟨_, rfl⟩
    · have := (List.getElem?_eq_some_iff.1 hn).1
      omega
    · simp [Builder.toNode] at h3

theorem NewOps.trans {O : Ops Op} {a b c : Graph Op} {us vs : List Nat} (hg : Grows O b c) (h1 : NewOps a b us) (h2 : NewOps b c vs) :
    NewOps a c (us ++ vs) := by
  intro x hx ho
  by_cases hb : x < b.nodes.length
  · refine List.mem_append_left _ (h1 x hx ?_)
    obtain ⟨n, hn, h3, h4⟩ := ho
    have := hg.node (List.getElem?_eq_getElem hb)
    rw [hn] at this
    cases this
    exact ⟨_, List.getElem?_eq_getElem hb, h3, h4⟩
  · exact List.mem_append_right _ (h2 x (by omega) ho)

theorem stateTensors_ok {O : Ops Op} {env : VarEnv A} {ns : Str} : ∀ {names : List Str} {g g' : Graph Op} {ts : List Nat}, WF g →
    stateTensors O.varOp env ns g names = .ok (g', ts) →
    Grows O g g' ∧ NewOps g g' [] ∧
      ∃ svs, List.Forall₂ (fun name sv => env.names.get ⟨ns, name⟩ = some sv) names svs ∧ List.Forall₂ (VarTensor g') ts svs
  | [], g, g', ts, hw, h => by
    cases h
    refine ⟨.refl _, ?_, [], .nil, .nil⟩
    rintro a ha ⟨n, hn, _⟩
    have := (List.getElem?_eq_some_iff.1 hn).1
    omega
  | name :: names, g, g', ts, hw, h => by
    simp only [stateTensors, bind_ok] at h
    obtain ⟨⟨g1, t⟩, h1, ⟨g2, ts'⟩, h2, h⟩ := h
    cases h
    unfold Graph.variableByName at h1
    cases hk : env.names.get ⟨ns, name⟩ with
    | none => simp [hk] at h1
    | some vid =>
      simp only [hk] at h1
      have hg1 := Grows.var h1
      obtain ⟨hv, hno⟩ := variableById_grows hw h1
      obtain ⟨i1, i2, svs, i3, i4⟩ := stateTensors_ok (hg1.wf hw) h2
      exact ⟨hg1.trans i1, hno.trans i1 i2, vid :: svs, .cons hk i3, .cons (i1.varTensor hv) i4⟩

/-- What a step of `compute_updates` built for the pair (parameter, gradient). -/
def Built (env : VarEnv A) (ns : Str) (stateNames : Nat → List Str) (o : Op) (g g' : Graph Op) (pg : Nat × Nat) (u : Nat) : Prop :=
  ∃ vid svs, VarTensor g pg.1 vid ∧ List.Forall₂ (fun name sv => env.names.get ⟨ns, name⟩ = some sv) (stateNames vid) svs ∧
    IsUpdate g' o vid svs u { id := pg.2 }

theorem isUpdate_grows {O : Ops Op} {g g' : Graph Op} (h : Grows O g g') {o : Op} {pv : Nat} {svs : List Nat} {u : Nat} {gr : Incoming}
    (hu : IsUpdate g o pv svs u gr) : IsUpdate g' o pv svs u gr := by
  have hm : ∀ i v, MutVar g i v → MutVar g' i v := fun i v ⟨a, m, h1, h2⟩ => ⟨a, m, h.node h1, h2⟩
  obtain ⟨n, p, ss, hn, ho, hin, hp, hgr, hss⟩ := hu
  exact ⟨n, p, ss, h.node hn, ho, hin, hm _ _ hp, hgr, hss.imp fun i v => hm i v⟩

theorem build_newOps {g g' : Graph Op} {ins : List Incoming} {o : Op} {u : Nat} (h : g.build { inNodes := ins } o = .ok (g', u)) :
    NewOps g g' [u] ∧ u = g.nodes.length ∧ ∃ n, g'.nodes[u]? = some n ∧ n.op = o ∧ n.incoming = ins ∧ n.placeholderName = none ∧ n.variableId = none := by
  obtain ⟨r, hr, hl, rfl, e1, e2⟩ := build_ok h
  refine ⟨?_, rfl, _, by rw [e2]; simp; rfl, rfl, rfl, rfl, rfl⟩
  rintro a ha ⟨n, hn, _⟩
  have := (List.getElem?_eq_some_iff.1 hn).1
  rw [e2] at this
  simp at this ⊢
  omega

theorem updatesLoop_ok {O : Ops Op} {o : Op} {env : VarEnv A} {ns : Str} {stateNames : Nat → List Str} :
    ∀ {pgs : List (Nat × Nat)} {g g' : Graph Op} {us : List Nat}, WF g → (∀ pg ∈ pgs, pg.1 < g.nodes.length) →
    updatesLoop O.varOp o env ns stateNames g pgs = .ok (g', us) →
    Grows O g g' ∧ NewOps g g' us ∧ us.Nodup ∧ (∀ u ∈ us, g.nodes.length ≤ u ∧ u < g'.nodes.length) ∧
      List.Forall₂ (Built env ns stateNames o g g') pgs us
  | [], g, g', us, hw, hlt, h => by
    cases h
    refine ⟨.refl _, ?_, by simp, by simp, .nil⟩
    rintro a ha ⟨n, hn, _⟩
    have := (List.getElem?_eq_some_iff.1 hn).1
    omega
  | (p, gr) :: pgs, g, g', us, hw, hlt, h => by
    simp only [updatesLoop, bind_ok] at h
    obtain ⟨np, hnp, h⟩ := h
    rw [access_ok] at hnp
    split at h
    · cases h
    · rename_i vid hvid
      simp only [bind_ok] at h
      obtain ⟨⟨g1, ss⟩, h1, ⟨g2, u⟩, h2, ⟨g3, us'⟩, h3, h⟩ := h
      obtain ⟨rfl, rfl⟩ := Prod.mk.inj (Except.ok.inj h)
      dsimp only at h1 h2 h3
      obtain ⟨a1, a2, svs, a3, a4⟩ := stateTensors_ok hw h1
      have b1 : Grows O g1 g2 := Grows.build h2
      obtain ⟨c1, c2, n, c3, c4, c5, c6, c7⟩ := build_newOps h2
      have hw1 := a1.wf hw
      have hw2 := b1.wf hw1
      have hgg := a1.trans b1
      obtain ⟨d1, d2, d3, d4, d5⟩ := updatesLoop_ok hw2
        (fun pg hpg => Nat.lt_of_lt_of_le (hlt pg (by simp [hpg])) hgg.size) h3
      have hpv : VarTensor g p vid := ⟨np, hnp, hvid⟩
      have hul : u < g2.nodes.length := (List.getElem?_eq_some_iff.1 c3).1
      refine ⟨hgg.trans d1, ?_, ?_, ?_, ?_⟩
      · exact (a2.trans b1 c1).trans d1 d2
      · refine List.nodup_cons.2 ⟨fun hm => ?_, d3⟩
        have := (d4 u hm).1
        omega
      · intro x hx
        show g.nodes.length ≤ x ∧ x < g3.nodes.length
        rcases List.mem_cons.1 hx with rfl | hx
        · have := a1.size; have := d1.size
          exact ⟨by omega, by omega⟩
        · have := d4 x hx
          have := hgg.size
          omega
      · refine .cons ⟨vid, svs, hpv, a3, isUpdate_grows d1 ⟨n, _, _, c3, c4, c5, ?_, rfl, ?_⟩⟩ ?_
        · exact (hgg.varTensor hpv).mutVar hw2
        · rw [List.forall₂_map_left_iff]
          refine List.Forall₂.imp (fun t v ht => ?_) a4
          exact (b1.varTensor ht).mutVar hw2
        · have hlt' : ∀ pg ∈ pgs, pg.1 < g.nodes.length := fun pg hpg => hlt pg (by simp [hpg])
          clear h3 d2 d3 d4 hlt
          revert d5 hlt'
          generalize us' = us''
          intro d5 hlt'
          induction d5 with
          | nil => exact .nil
          | @cons pg x pgs' us' hb hbs ih =>
            refine .cons ?_ (ih fun q hq => hlt' q (by simp [hq]))
            obtain ⟨v, sv, hvt, r1, r2⟩ := hb
            refine ⟨v, sv, ?_, r1, r2⟩
            obtain ⟨m, hm, hmv⟩ := hvt
            have hl := hlt' pg (by simp)
            have := hgg.node (List.getElem?_eq_getElem hl)
            rw [hm] at this
            cases this
            exact ⟨_, List.getElem?_eq_getElem hl, hmv⟩

theorem sgdLoop_ok {O : Ops Op} {o : Op} : ∀ {pgs : List (Nat × Nat)} {g g' : Graph Op} {us : List Nat}, WF g →
    (∀ pg ∈ pgs, ∃ vid, VarTensor g pg.1 vid) → sgdLoop o g pgs = .ok (g', us) →
    Grows O g g' ∧ NewOps g g' us ∧ us.Nodup ∧ (∀ u ∈ us, g.nodes.length ≤ u ∧ u < g'.nodes.length) ∧
      List.Forall₂ (fun (pg : Nat × Nat) u => ∃ vid, VarTensor g pg.1 vid ∧ IsUpdate g' o vid [] u { id := pg.2 }) pgs us
  | [], g, g', us, hw, hlt, h => by
    cases h
    refine ⟨.refl _, ?_, by simp, by simp, .nil⟩
    rintro a ha ⟨n, hn, _⟩
    have := (List.getElem?_eq_some_iff.1 hn).1
    omega
  | (p, gr) :: pgs, g, g', us, hw, hlt, h => by
    simp only [sgdLoop, bind_ok] at h
    obtain ⟨⟨g2, u⟩, h2, ⟨g3, us'⟩, h3, h⟩ := h
    obtain ⟨rfl, rfl⟩ := Prod.mk.inj (Except.ok.inj h)
    dsimp only at h2 h3
    have b1 : Grows O g g2 := Grows.build h2
    obtain ⟨c1, c2, n, c3, c4, c5, c6, c7⟩ := build_newOps h2
    have hw2 := b1.wf hw
    obtain ⟨d1, d2, d3, d4, d5⟩ := sgdLoop_ok (O := O) hw2
      (fun pg hpg => let ⟨v, hv⟩ := hlt pg (by simp [hpg]); ⟨v, b1.varTensor hv⟩) h3
    obtain ⟨vid, hpv⟩ := hlt (p, gr) (by simp)
    have hul : u < g2.nodes.length := (List.getElem?_eq_some_iff.1 c3).1
    refine ⟨b1.trans d1, c1.trans d1 d2, ?_, ?_, ?_⟩
    · refine List.nodup_cons.2 ⟨fun hm => ?_, d3⟩
      have := (d4 u hm).1
      omega
    · intro x hx
      show g.nodes.length ≤ x ∧ x < g3.nodes.length
      rcases List.mem_cons.1 hx with rfl | hx
      · have := d1.size
        exact ⟨by omega, by omega⟩
      · have := d4 x hx
        have := b1.size
        omega
    · refine .cons ⟨vid, hpv, isUpdate_grows d1 ⟨n, _, [], c3, c4, c5, (b1.varTensor hpv).mutVar hw2, rfl, .nil⟩⟩ ?_
      have hlt' : ∀ pg ∈ pgs, ∃ vid, VarTensor g pg.1 vid := fun pg hpg => hlt pg (by simp [hpg])
      clear h3 d2 d3 d4 hlt
      revert d5 hlt'
      generalize us' = us''
      intro d5 hlt'
      induction d5 with
      | nil => exact .nil
      | @cons pg x pgs' us' hb hbs ih =>
        refine .cons ?_ (ih fun q hq => hlt' q (by simp [hq]))
        obtain ⟨v, hvt, r2⟩ := hb
        obtain ⟨v', hv'⟩ := hlt' pg (by simp)
        refine ⟨v, ?_, r2⟩
        have := b1.varTensor hv'
        obtain ⟨m, hm, hmv⟩ := hvt
        obtain ⟨m', hm', hmv'⟩ := this
        rw [hm] at hm'; cases hm'
        rw [hmv] at hmv'; cases hmv'
        exact hv'

/-- The ops executed for the update tensors: these tensors and what their gradients need. -/
theorem needed_updates {O : Ops Op} {g g' : Graph Op} (hw : WF g) (hg : Grows O g g') {us : List Nat} {grs : List Nat}
    (hgr : ∀ gr ∈ grs, gr < g.nodes.length)
    (hus : ∀ u ∈ us, ∃ pv svs gr o, gr ∈ grs ∧ IsUpdate g' o pv svs u { id := gr }) {b : Nat}
    (h : Needed g' us b) : b ∈ us ∨ Needed g grs b := by
  obtain ⟨t, ht, _, hr⟩ := h
  rcases ReflTransGen.cases_head hr with rfl | ⟨c, hc, hcb⟩
  · exact .inl ht
  · right
    obtain ⟨pv, svs, gr, o, hgm, n, p, ss, hn, _, hin, hp, _, hss⟩ := hus t ht
    obtain ⟨⟨n', hn', i, hi, rfl⟩, hop⟩ := hc
    rw [hn] at hn'; cases hn'
    rw [hin] at hi
    have notop : ∀ i v, MutVar g' i v → ¬ IsOp g' i.id := by
      rintro i v ⟨_, m, h1, _, h2⟩ ⟨m', h3, _, h4⟩
      rw [h1] at h3; cases h3; rw [h2] at h4; cases h4
    rcases List.mem_cons.1 hi with rfl | hi
    · exact absurd hop (notop _ _ hp)
    rcases List.mem_cons.1 hi with rfl | hi
    · -- the gradient: everything below it is in the old graph
      have hlt := hgr gr hgm
      have back : ∀ a, a < g.nodes.length → IsOp g' a → IsOp g a := by
        rintro a ha ⟨m, hm, h1⟩
        have := hg.node (List.getElem?_eq_getElem ha)
        rw [hm] at this; cases this
        exact ⟨_, List.getElem?_eq_getElem ha, h1⟩
      have key : ∀ {a b : Nat}, ReflTransGen (Uses g') a b → a < g.nodes.length → ReflTransGen (Uses g) a b := by
        intro a b hab
        induction hab using ReflTransGen.head_induction_on with
        | refl => exact fun _ => .refl
        | @head a c hac _ ih =>
          intro ha
          obtain ⟨⟨m, hm, j, hj, rfl⟩, ho⟩ := hac
          have := hg.node (List.getElem?_eq_getElem ha)
          rw [hm] at this; cases this
          have hjl : j.id < g.nodes.length := hw.closed a _ (List.getElem?_eq_getElem ha) j hj
          exact .head ⟨⟨_, List.getElem?_eq_getElem ha, j, hj, rfl⟩, back _ hjl ho⟩ (ih hjl)
      exact ⟨gr, hgm, back gr hlt hop, key hcb hlt⟩
    · obtain ⟨j, hj, hji⟩ := List.mem_iff_getElem.1 hi
      obtain ⟨v, _, hm⟩ := (mutVar_mem hss).1 j i (by rw [List.getElem?_eq_getElem hj, hji])
      exact absurd hop (notop _ _ hm)

end Verif.Opt
