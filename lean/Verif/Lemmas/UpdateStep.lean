import Verif.Lemmas.UpdateTotal
import Verif.Props.UpdateStep

/-! One call of `Optimizer::update`: the update tensors are evaluated, and every parameter is updated with the gradient at the old variables. -/

namespace Verif.Eval
open Verif Verif.Spec Verif.Graph Verif.Opt Verif.Props Relation
variable {Op V E W : Type}

/-- The graph `g'` arises from `g` by adding the update tensors `us` for the pairs (parameter, gradient) `pgs`; `St` gives the state variables. -/
structure UpdatesBuilt (O : Ops Op) (o : Op) (St : Nat → List Nat → Prop) (g g' : Graph Op) (pgs : List (Nat × Nat)) (us : List Nat) : Prop where
  grows : Opt.Grows O g g'
  newOps : NewOps g g' us
  nodup : us.Nodup
  new : ∀ u ∈ us, g.nodes.length ≤ u ∧ u < g'.nodes.length
  built : List.Forall₂ (fun (pg : Nat × Nat) u => ∃ vid svs, VarTensor g pg.1 vid ∧ St vid svs ∧ IsUpdate g' o vid svs u { id := pg.2 }) pgs us

variable {O : Ops Op} {o : Op} {St : Nat → List Nat → Prop} {g g' : Graph Op} {pgs : List (Nat × Nat)} {us : List Nat}

theorem UpdatesBuilt.of (h : UpdatesBuilt O o St g g' pgs us) {u : Nat} (hu : u ∈ us) : ∃ (k : Nat) (pg : Nat × Nat) (vid : Nat) (svs : List Nat),
    us[k]? = some u ∧ pgs[k]? = some pg ∧ VarTensor g pg.1 vid ∧ St vid svs ∧ IsUpdate g' o vid svs u { id := pg.2 } := by
  obtain ⟨k, hk, hku⟩ := List.mem_iff_getElem.1 hu
  have hk' : k < pgs.length := by rw [h.built.length_eq]; exact hk
  obtain ⟨u'', h1, vid', svs', h2⟩ := (forall₂_get h.built).2 k _ (List.getElem?_eq_getElem hk')
  rw [List.getElem?_eq_getElem hk, hku] at h1
  cases h1
  exact ⟨k, pgs[k], vid', svs', by rw [List.getElem?_eq_getElem hk, hku], List.getElem?_eq_getElem hk', h2⟩

theorem old_node (hg : Opt.Grows O g g') {a : Nat} {n : Node Op} (ha : a < g.nodes.length) (hn : g'.nodes[a]? = some n) : g.nodes[a]? = some n := by
  have := hg.node (List.getElem?_eq_getElem ha)
  rw [hn] at this
  rw [Option.some.inj this]
  exact List.getElem?_eq_getElem ha

theorem old_isOp (hg : Opt.Grows O g g') {a : Nat} (ha : a < g.nodes.length) (ho : IsOp g' a) : IsOp g a := by
  obtain ⟨n, hn, h⟩ := ho
  exact ⟨n, old_node hg ha hn, h⟩

theorem isOp_lt {a : Nat} (ho : IsOp g a) : a < g.nodes.length := by
  obtain ⟨n, hn, _⟩ := ho
  exact (List.getElem?_eq_some_iff.1 hn).1

theorem isOp_grows (hg : Opt.Grows O g g') {a : Nat} (ho : IsOp g a) : IsOp g' a := by
  obtain ⟨n, hn, h⟩ := ho
  exact ⟨n, hg.node hn, h⟩

theorem old_uses (hw : WF g) (hg : Opt.Grows O g g') {a b : Nat} (ha : a < g.nodes.length) (h : Uses g' a b) : Uses g a b := by
  obtain ⟨⟨n, hn, i, hi, rfl⟩, ho⟩ := h
  have hn' := old_node hg ha hn
  exact ⟨⟨n, hn', i, hi, rfl⟩, old_isOp hg (hw.closed a n hn' i hi) ho⟩

theorem old_path (hw : WF g) (hg : Opt.Grows O g g') {a b : Nat} (h : ReflTransGen (Uses g') a b) (ha : a < g.nodes.length) : ReflTransGen (Uses g) a b := by
  induction h using ReflTransGen.head_induction_on with
  | refl => exact .refl
  | @head a c hac _ ih =>
    have h1 := old_uses hw hg ha hac
    exact .head h1 (ih (isOp_lt h1.2))

theorem uses_grows (hg : Opt.Grows O g g') {a b : Nat} (h : Uses g a b) : Uses g' a b := by
  obtain ⟨⟨n, hn, i, hi, rfl⟩, ho⟩ := h
  exact ⟨⟨n, hg.node hn, i, hi, rfl⟩, isOp_grows hg ho⟩

theorem path_grows (hg : Opt.Grows O g g') {a b : Nat} (h : ReflTransGen (Uses g) a b) : ReflTransGen (Uses g') a b := by
  induction h with
  | refl => exact .refl
  | tail _ h1 ih => exact ih.tail (uses_grows hg h1)

theorem mutVar_notOp {i : Incoming} {v : Nat} (h : MutVar g i v) : ¬ IsOp g i.id := by
  obtain ⟨_, m, h1, _, h2⟩ := h
  rintro ⟨m', h3, _, h4⟩
  rw [h1] at h3; cases h3; rw [h2] at h4; cases h4

/-- The only op used by an update tensor is its gradient. -/
theorem isUpdate_uses {pv : Nat} {svs : List Nat} {u : Nat} {gr : Incoming} (h : IsUpdate g o pv svs u gr) {b : Nat} (hb : Uses g u b) : b = gr.id := by
  obtain ⟨n, p, ss, hn, _, hin, hp, _, hss⟩ := h
  obtain ⟨⟨n', hn', i, hi, rfl⟩, hop⟩ := hb
  rw [hn] at hn'; cases hn'
  rw [hin] at hi
  rcases List.mem_cons.1 hi with rfl | hi
  · exact absurd hop (mutVar_notOp hp)
  rcases List.mem_cons.1 hi with rfl | hi
  · rfl
  · obtain ⟨j, hj, hji⟩ := List.mem_iff_getElem.1 hi
    obtain ⟨v, _, hm⟩ := (mutVar_mem hss).1 j i (by rw [List.getElem?_eq_getElem hj, hji])
    exact absurd hop (mutVar_notOp hm)

/-- The variables read by an update tensor whose gradient is an op. -/
theorem isUpdate_reads {pv : Nat} {svs : List Nat} {u : Nat} {gr : Incoming} (h : IsUpdate g o pv svs u gr) (ho : IsOp g gr.id) {vid : Nat}
    (hr : ReadsVar g u vid) : vid ∈ pv :: svs := by
  obtain ⟨n, p, ss, hn, _, hin, hp, _, hss⟩ := h
  obtain ⟨n', hn', i, hi, m, hm, hv⟩ := hr
  rw [hn] at hn'; cases hn'
  rw [hin] at hi
  have key : ∀ v, MutVar g i v → vid = v := by
    rintro v ⟨_, m', h1, _, h2⟩
    rw [hm] at h1; cases h1
    rw [hv] at h2; exact Option.some.inj h2
  rcases List.mem_cons.1 hi with rfl | hi
  · rw [key _ hp]; simp
  rcases List.mem_cons.1 hi with rfl | hi
  · obtain ⟨m', h1, _, h2⟩ := ho
    rw [hm] at h1; cases h1
    rw [hv] at h2; cases h2
  · obtain ⟨j, hj, hji⟩ := List.mem_iff_getElem.1 hi
    obtain ⟨v, hjv, hmv⟩ := (mutVar_mem hss).1 j i (by rw [List.getElem?_eq_getElem hj, hji])
    rw [key _ hmv]
    exact List.mem_cons_of_mem _ (List.mem_of_getElem? hjv)

/-- What an update tensor needs. -/
theorem isUpdate_below (hw : WF g) (hg : Opt.Grows O g g') {pv : Nat} {svs : List Nat} {u gr : Nat} (h : IsUpdate g' o pv svs u { id := gr })
    (ho : IsOp g gr) {a : Nat} : TransGen (Uses g') u a ↔ Needed g [gr] a := by
  constructor
  · intro ht
    obtain ⟨c, h1, h2⟩ := TransGen.head'_iff.1 ht
    rw [isUpdate_uses h h1] at h2
    exact ⟨gr, by simp, ho, old_path hw hg h2 (isOp_lt ho)⟩
  · rintro ⟨t, ht, _, hr⟩
    rw [List.mem_singleton.1 ht] at hr
    obtain ⟨n, p, ss, hn, _, hin, _⟩ := h
    exact TransGen.head' ⟨⟨n, hn, { id := gr }, by rw [hin]; simp, rfl⟩, isOp_grows hg ho⟩ (path_grows hg hr)

theorem UpdatesBuilt.acyclic (hw : WF g) (hac : Acyclic g) (h : UpdatesBuilt O o St g g' pgs us) (hgr : ∀ pg ∈ pgs, pg.2 < g.nodes.length) : Acyclic g' := by
  have hw' := h.grows.wf hw
  have hold : ∀ {a b : Nat}, a < g.nodes.length → DependsDirectly g' a b → DependsDirectly g a b ∧ b < g.nodes.length := by
    rintro a b ha ⟨n, hn, i, hi, rfl⟩
    have hn' := old_node h.grows ha hn
    exact ⟨⟨n, hn', i, hi, rfl⟩, hw.closed a n hn' i hi⟩
  have hpath : ∀ {a b : Nat}, a < g.nodes.length → ReflTransGen (DependsDirectly g') a b → ReflTransGen (DependsDirectly g) a b ∧ b < g.nodes.length := by
    intro a b ha hab
    induction hab with
    | refl => exact ⟨.refl, ha⟩
    | tail _ h1 ih => exact ⟨ih.1.tail (hold ih.2 h1).1, (hold ih.2 h1).2⟩
  intro a haa
  obtain ⟨b, h1, h2⟩ := TransGen.head'_iff.1 haa
  by_cases ha : a < g.nodes.length
  · obtain ⟨h3, hb⟩ := hold ha h1
    exact hac a (TransGen.head' h3 (hpath hb h2).1)
  · obtain ⟨n, hn, i, hi, rfl⟩ := h1
    have hop : IsOp g' a := by
      rw [isOp_iff hn]
      cases hl : n.isLeafInput with
      | false => rfl
      | true => rw [hw'.leafSource _ _ hn hl] at hi; cases hi
    obtain ⟨k, pg, vid, svs, _, hk, _, _, hiu⟩ := h.of (h.newOps a (by omega) hop)
    obtain ⟨n', p, ss, hn', _, hin, hp, _, hss⟩ := hiu
    rw [hn] at hn'; cases hn'
    have hvar : ∀ v, ¬ MutVar g' i v := by
      rintro v ⟨_, m, hm, hpm, hvm⟩
      rcases ReflTransGen.cases_head h2 with h3 | ⟨c, ⟨m', hm', j, hj, _⟩, _⟩
      · obtain ⟨m', hm', _, h4⟩ := hop
        rw [h3, hm'] at hm; cases hm; rw [hvm] at h4; cases h4
      · rw [hm] at hm'; cases hm'
        rw [hw'.leafSource _ _ hm (by simp [Node.isLeafInput, Node.isVariable, hvm])] at hj
        cases hj
    rw [hin] at hi
    rcases List.mem_cons.1 hi with rfl | hi
    · exact hvar _ hp
    rcases List.mem_cons.1 hi with rfl | hi
    · exact ha (hpath (hgr pg (List.mem_of_getElem? hk)) h2).2
    · obtain ⟨j, hj, hji⟩ := List.mem_iff_getElem.1 hi
      obtain ⟨v, _, hm⟩ := (mutVar_mem hss).1 j i (by rw [List.getElem?_eq_getElem hj, hji])
      exact hvar _ hm

/-- The values of inputs that are variables to be written. -/
theorem inputsAre_mut {shapeOf : V → List Nat} {feeds : List (Feed V)} {env : List V} {cv : Nat → Except E (List V)} {ss : List Incoming} {svs : List Nat}
    {vals : List V} (h : List.Forall₂ (MutVar g) ss svs) (hv : Holds env svs vals) :
    InputsAre shapeOf g feeds env cv ss (.ok (vals.map fun v => ⟨.rdWr, v⟩)) := by
  unfold Holds at hv
  induction h generalizing vals with
  | nil => cases hv; exact .nil
  | @cons i v ss svs h1 _ ih =>
    obtain ⟨ha, m, hn, hp, hvid⟩ := h1
    cases hv with
    | cons h2 h3 =>
      refine .cons ?_ (ih h3)
      have := InputIs.variable_ (shapeOf := shapeOf) (feeds := feeds) (cv := cv) hn hp hvid h2
      rwa [ha] at this

/-- The conditions on parameters and gradients for `update_step`: `f` gives the meanings of the ops below the gradients, `G` the values of the gradients. -/
structure GradsOk (f : Op → List (OpInput V) → Option (Except E (List V))) (S : Sem Op V E W) (o : Op) (St : Nat → List Nat → Prop) (g : Graph Op)
    (pgs : List (Nat × Nat)) (feeds : List (Feed V)) (env : List V) (G : Nat × Nat → V) : Prop where
  distinct : (pgs.map Prod.fst).Nodup
  separate : ∀ pg ∈ pgs, ∀ pg' ∈ pgs, ∀ v svs v' svs', VarTensor g pg.1 v → VarTensor g pg'.1 v' → St v svs → St v' svs' → v ≠ v' →
    ∀ x ∈ v :: svs, x ∉ v' :: svs'
  state : ∀ v svs svs', St v svs → St v svs' → svs = svs'
  means : ∀ pg ∈ pgs, ∃ ys, Means f S.shapeOf g feeds env pg.2 (.ok (G pg :: ys))
  pure : ∀ a n, Needed g (pgs.map Prod.snd) a → g.nodes[a]? = some n → Computes S n.op (f n.op)
  ro : ∀ a vid, Needed g (pgs.map Prod.snd) a → ¬ MayWrite g a vid
  ind : ∀ pg ∈ pgs, ∀ pg' ∈ pgs, ∀ v svs, VarTensor g pg.1 v → St v svs → ∀ x ∈ v :: svs, ∀ a, Needed g [pg'.2] a → ReadsVar g a x → Needed g [pg.2] a
  runs : ∀ pg ∈ pgs, ∀ v svs, VarTensor g pg.1 v → St v svs → ∃ p ss, Holds env (v :: svs) (p :: ss) ∧
    ∀ w, ∃ w' ws y ys, S.compute o w (⟨.rdWr, p⟩ :: ⟨.nonVariable, G pg⟩ :: ss.map fun s => ⟨.rdWr, s⟩) = .done w' ws (y :: ys) (.ok ())

variable {f : Op → List (OpInput V) → Option (Except E (List V))} {S : Sem Op V E W} {feeds : List (Feed V)} {env : List V} {G : Nat × Nat → V}

theorem needed_of {pg : Nat × Nat} (h : pg ∈ pgs) {a : Nat} (ha : Needed g [pg.2] a) : Needed g (pgs.map Prod.snd) a := by
  obtain ⟨t, ht, ho, hr⟩ := ha
  exact ⟨t, by rw [List.mem_singleton.1 ht]; exact List.mem_map.2 ⟨pg, h, rfl⟩, ho, hr⟩

theorem needed_isOp {ts : List Nat} {a : Nat} (h : Needed g ts a) : IsOp g a := by
  obtain ⟨t, _, ho, hr⟩ := h
  rcases ReflTransGen.cases_tail hr with rfl | ⟨c, _, hc⟩
  · exact ho
  · exact hc.2

theorem readsVar_old (hw : WF g) (hg : Opt.Grows O g g') {a vid : Nat} (ha : a < g.nodes.length) (h : ReadsVar g' a vid) : ReadsVar g a vid := by
  obtain ⟨n, hn, i, hi, m, hm, hv⟩ := h
  have hn' := old_node hg ha hn
  exact ⟨n, hn', i, hi, m, old_node hg (hw.closed a n hn' i hi) hm, hv⟩

theorem mayWrite_old (hw : WF g) (hg : Opt.Grows O g g') {a vid : Nat} (ha : a < g.nodes.length) (h : MayWrite g' a vid) : MayWrite g a vid := by
  obtain ⟨n, hn, i, hi, hm, m, hm', h⟩ := h
  have hn' := old_node hg ha hn
  exact ⟨n, hn', i, hi, hm, m, old_node hg (hw.closed a n hn' i hi) hm', h⟩

/-- Different update tensors have different variables. -/
theorem GradsOk.apart (hw : WF g) (hG : GradsOk f S o St g pgs feeds env G) {k k' : Nat} {pg pg' : Nat × Nat}
    {v v' : Nat} {svs svs' : List Nat} (hk : pgs[k]? = some pg) (hk' : pgs[k']? = some pg') (hv : VarTensor g pg.1 v) (hv' : VarTensor g pg'.1 v')
    (hs : St v svs) (hs' : St v' svs') (hne : k ≠ k') : ∀ x ∈ v :: svs, x ∉ v' :: svs' := by
  refine hG.separate pg (List.mem_of_getElem? hk) pg' (List.mem_of_getElem? hk') v svs v' svs' hv hv' hs hs' ?_
  rintro rfl
  obtain ⟨n1, a1, a2⟩ := hv
  obtain ⟨n2, b1, b2⟩ := hv'
  have e1 := (hw.cache v pg.1).2 ⟨n1, a1, a2⟩
  have e2 := (hw.cache v pg'.1).2 ⟨n2, b1, b2⟩
  rw [e1] at e2
  refine hne ?_
  have hk1 := (List.getElem?_eq_some_iff.1 hk).1
  have hj1 := (List.getElem?_eq_some_iff.1 hk').1
  refine (hG.distinct.getElem_inj_iff (hi := by simpa using hk1) (hj := by simpa using hj1)).1 ?_
  simp [(List.getElem?_eq_some_iff.1 hk).2, (List.getElem?_eq_some_iff.1 hk').2, Option.some.inj e2]

theorem UpdatesBuilt.stepOk (hw : WF g) (h : UpdatesBuilt O o St g g' pgs us) (hG : GradsOk f S o St g pgs feeds env G) :
    StepOk f S g' feeds env us := by
  have hop : ∀ pg ∈ pgs, IsOp g pg.2 := fun pg hp => let ⟨_, h⟩ := hG.means pg hp; means_isOp h
  have hw' := h.grows.wf hw
  have hext : Extends g g' := fun _ _ hn => h.grows.node hn
  have hbelow : ∀ {u}, u ∈ us → ∃ pg ∈ pgs, ∀ a, TransGen (Uses g') u a ↔ Needed g [pg.2] a := by
    intro u hu
    obtain ⟨k, pg, vid, svs, _, hk, _, _, hiu⟩ := h.of hu
    have hm := List.mem_of_getElem? hk
    exact ⟨pg, hm, fun a => isUpdate_below hw h.grows hiu (hop pg hm)⟩
  refine ⟨?_, ?_, ?_, ?_, ?_, ?_, ?_, ?_⟩
  · intro u hu
    obtain ⟨k, pg, vid, svs, _, _, _, _, hiu⟩ := h.of hu
    exact isUpdate_isOp hw' hiu
  · intro u hu a n ha hn
    obtain ⟨pg, hp, hb⟩ := hbelow hu
    have := (hb a).1 ha
    exact hG.pure a n (needed_of hp this) (old_node h.grows (isOp_lt (needed_isOp this)) hn)
  · intro u hu a vid ha hm
    obtain ⟨pg, hp, hb⟩ := hbelow hu
    have := (hb a).1 ha
    exact hG.ro a vid (needed_of hp this) (mayWrite_old hw h.grows (isOp_lt (needed_isOp this)) hm)
  · intro u hu u' hu' ha
    obtain ⟨pg, hp, hb⟩ := hbelow hu
    have h1 := isOp_lt (needed_isOp ((hb u').1 ha))
    have h2 := (h.new u' hu').1
    omega
  · intro u hu u' hu' a vid hm ha hr
    obtain ⟨k, pg, v, svs, _, hk, hv, hs, hiu⟩ := h.of hu
    have hp := List.mem_of_getElem? hk
    obtain ⟨pg', hp', hb'⟩ := hbelow hu'
    have h1 := (hb' a).1 ha
    rw [isUpdate_below hw h.grows hiu (hop pg hp)]
    exact hG.ind pg hp pg' hp' v svs hv hs vid ((isUpdate_mayWrite hiu).1 hm) a h1 (readsVar_old hw h.grows (isOp_lt (needed_isOp h1)) hr)
  · intro u hu u' hu' vid hr hne hm
    obtain ⟨k, pg, v, svs, hku, hk, hv, hs, hiu⟩ := h.of hu
    obtain ⟨k', pg', v', svs', hku', hk', hv', hs', hiu'⟩ := h.of hu'
    have hkk : k ≠ k' := by
      rintro rfl
      rw [hku] at hku'
      exact hne (Option.some.inj hku').symm
    exact hG.apart hw hk hk' hv hv' hs hs' hkk vid (isUpdate_reads hiu (isOp_grows h.grows (hop pg (List.mem_of_getElem? hk))) hr)
      ((isUpdate_mayWrite hiu').1 hm)
  · intro u hu b hb
    obtain ⟨k, pg, vid, svs, _, hk, _, _, hiu⟩ := h.of hu
    rw [isUpdate_uses hiu hb]
    obtain ⟨ys, hys⟩ := hG.means pg (List.mem_of_getElem? hk)
    exact ⟨_, hext.means hw.closed hys⟩
  · intro u hu n hn
    obtain ⟨k, pg, v, svs, _, hk, hv, hs, hiu⟩ := h.of hu
    have hp := List.mem_of_getElem? hk
    obtain ⟨ys, hys⟩ := hG.means pg hp
    obtain ⟨p, ss, hh, hrun⟩ := hG.runs pg hp v svs hv hs
    obtain ⟨n', pi, si, hn', hno, hin, hpi, _, hsi⟩ := id hiu
    rw [hn] at hn'; cases hn'
    have hog := isOp_grows h.grows (hop pg hp)
    refine ⟨_, fun cv hcv => ?_, by rw [hno]; exact hrun⟩
    cases hh with
    | cons h1 h2 =>
      have hm := inputsAre_mut (shapeOf := S.shapeOf) (feeds := feeds) (cv := cv) (.cons hpi .nil) (.cons h1 .nil : Holds env [v] [p])
      rw [hin]
      cases hm with
      | cons h3 _ =>
        refine .cons h3 (.cons ?_ (inputsAre_mut hsi h2))
        have hu' : Uses g' u pg.2 := ⟨⟨n, hn, { id := pg.2 }, by rw [hin]; simp, rfl⟩, hog⟩
        exact .result hog (means_unique (hcv _ hu') (hext.means hw.closed hys)) rfl

/-- **One step.** The evaluation of the update tensors returns; each parameter is updated once, with the value `G` of its gradient. -/
theorem update_step (hg : Reachable O g) (hac : Acyclic g) (h : UpdatesBuilt O o St g g' pgs us) (hG : GradsOk f S o St g pgs feeds env G)
    {fuel : Nat} (hfuel : 2 * (us.length + edgeCount g') ≤ fuel) (w : W) :
    ∃ env', runUpdates S g' fuel us feeds env w = some (.ok env') ∧
      ∀ pg ∈ pgs, ∀ v svs, VarTensor g pg.1 v → St v svs → ∀ env0 gs, Training O S o v svs env0 gs env → Training O S o v svs env0 (gs ++ [G pg]) env' := by
  have hw := hg.wf
  have hop : ∀ pg ∈ pgs, IsOp g pg.2 := fun pg hp => let ⟨_, h⟩ := hG.means pg hp; means_isOp h
  have hgr : ∀ pg ∈ pgs, pg.2 < g.nodes.length := fun pg hp => isOp_lt (hop pg hp)
  have hw' := h.grows.wf hw
  have hus : ∀ u ∈ us, u < g'.nodes.length := fun u hu => (h.new u hu).2
  have hreach : Reachable O g' := by obtain ⟨cs, ids, h1, _⟩ := h.grows; exact hg.all h1
  have hst := h.stepOk hw hG
  obtain ⟨env', hrun⟩ := updates_total (w := w) hw' (h.acyclic hw hac hgr) hus h.nodup hst hfuel
  refine ⟨env', hrun, fun pg hp v svs hv hs env0 gs htr => ?_⟩
  obtain ⟨j, hj, hjp⟩ := List.mem_iff_getElem.1 hp
  have hj? : pgs[j]? = some pg := by rw [List.getElem?_eq_getElem hj, hjp]
  obtain ⟨u, hju, v1, svs1, hv1, hs1, hiu⟩ := (forall₂_get h.built).2 j _ hj?
  have : v1 = v := by
    obtain ⟨n, h1, h2⟩ := hv
    obtain ⟨n', h1', h2'⟩ := hv1
    rw [h1] at h1'; cases h1'; rw [h2] at h2'; exact (Option.some.inj h2').symm
  subst this
  have := hG.state _ _ _ hs hs1
  subst this
  let B : Nat × Nat → Nat → Nat → List Nat → Prop := fun pg u vid svs => VarTensor g pg.1 vid ∧ St vid svs ∧ IsUpdate g' o vid svs u { id := pg.2 }
  have honce : UpdatesOnce S o g' us v1 svs u pg.2 := by
    refine updatesOnce_of_built hw h.grows hus hgr hG.ro (B := B) (fun _ _ _ _ h => h.2.2) h.built hj? hju ⟨hv, hs, hiu⟩ ?_
    rintro k pg' u' vid' svs' hk hku ⟨h1, h2, _⟩ hkj
    exact hG.apart hw hj? hk hv h1 hs h2 (Ne.symm hkj)
  obtain ⟨res, x, hev, hread, htr'⟩ := C44_update_is_step O S o g' us v1 svs u pg.2 hreach hus honce fuel feeds env0 gs env env' w htr hrun
  have hx := C45_gradients_before_step_partial O S g' fuel us feeds env w res f hreach hus hev
    (fun u hu => let ⟨_, pg, v, svs, _, _, _, _, h⟩ := h.of hu; ⟨o, v, svs, _, h⟩) hst.pure hst.ro hst.ind
    (fun u hu u' hu' o2 pv2 svs2 gr2 m vid h1 h2 h3 hne hm => by
      refine hst.own u hu u' hu' vid ?_ hne hm
      obtain ⟨n, p, ss, hn, _, hin, _⟩ := h1
      exact ⟨n, hn, gr2, by rw [hin]; simp, m, h2, h3⟩) u (List.mem_of_getElem? hju) o v1 svs _ hiu x hread
  obtain ⟨cv, kind, h1, h2⟩ := hx
  obtain ⟨ys, hys⟩ := hG.means pg hp
  have hext : Extends g g' := fun _ _ hn => h.grows.node hn
  have hog := isOp_grows h.grows (hop pg hp)
  have hcv := means_unique (h1 hog) (hext.means hw.closed hys)
  have : x = G pg := by
    have := inputIs_unique (fun _ => rfl) h2 (InputIs.result (shapeOf := S.shapeOf) (feeds := feeds) (env := env) (i := { id := pg.2 }) hog hcv rfl)
    injection this with this
    injection this
  rwa [this] at htr'

end Verif.Eval
