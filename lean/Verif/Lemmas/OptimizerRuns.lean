import Verif.Lemmas.Training

/-! Runs of update tensors: each parameter is updated once. -/

namespace Verif.Props
open Verif Verif.Spec Verif.Eval Verif.Graph Verif.Opt Verif.OptState Verif.Nd Relation
variable {Op V E W R : Type}

/-- The arrays `zeros(shape)` used to initialise state: all elements zero, shape of the parameter. -/
def ZerosLike [Field R] (z : Arr R → Arr R) : Prop := ∀ a, (z a).shape = a.shape ∧ ∀ idx, (z a).get idx = 0

theorem single_start [Field R] {e0 e1 : VarEnv (Arr R)} {z : Arr R → Arr R} (hz : ZerosLike z) {ns : Str} {vids : List Nat} {pv : Nat}
    (hnew : singleNew z ns e0 vids = .ok e1) (hv : pv ∈ vids) {p : Arr R} (hp : e0.getById pv = some p) :
    ∃ s z0, singleState e1 ns pv = some s ∧ [pv, s].Nodup ∧ Holds e1.arrays [pv, s] [p, z0] ∧ z0.shape = p.shape ∧
      ∀ idx, z0.get idx = 0 := by
  obtain ⟨s, a, h1, h2, h3, h4⟩ := singleNew_state hnew hv
  have h5 : e1.getById pv = some p := by
    obtain ⟨l, hl⟩ := singleNew_arrays hnew
    unfold VarEnv.getById at hp ⊢
    rw [hl, List.getElem?_append_left (List.getElem?_eq_some_iff.1 hp).1, hp]
  rw [h2] at h5
  cases h5
  have hlt : pv < e0.arrays.length := (List.getElem?_eq_some_iff.1 hp).1
  exact ⟨s, z p, h1, by simp; omega, .cons h2 (.cons h3 .nil), (hz p).1, (hz p).2⟩

/-- The tensors built by `compute_updates` for one (parameter, gradient) pair, and what an update run does for it: the premises of
`Training.evaluation` are met, the parameter is updated exactly once, with the value which its gradient tensor has at that moment. -/
def UpdatesOnce (S : Sem Op V E W) (o : Op) (g' : Graph Op) (us : List Nat) (vid : Nat) (svs : List Nat) (u gr : Nat) : Prop :=
  OnlyUpdates g' us o vid svs ∧ IsUpdate g' o vid svs u { id := gr } ∧
  ∀ fuel feeds env w env', runUpdates S g' fuel us feeds env w = some (.ok env') →
    ∃ res x, eval S g' fuel us feeds env w = some (.ok res) ∧ res.env = env' ∧
      InputRead S g' feeds env w res.log u { id := gr } x ∧ GradsRead S g' feeds env w o vid svs res.log [x]

theorem runUpdates_ok {S : Sem Op V E W} {g : Graph Op} {fuel : Nat} {us : List Nat} {feeds : List (Feed V)} {env : List V} {w : W}
    {env' : List V} (h : runUpdates S g fuel us feeds env w = some (.ok env')) :
    ∃ res, eval S g fuel us feeds env w = some (.ok res) ∧ res.env = env' ∧ ∀ r ∈ res.results, ∃ v, r = .ok v := by
  unfold runUpdates at h
  split at h
  · cases h
  · cases h
  · rename_i res he
    split at h
    · rename_i ha
      cases h
      refine ⟨res, he, rfl, fun r hr => ?_⟩
      have := List.all_eq_true.1 ha r hr
      cases r with
      | ok v => exact ⟨v, rfl⟩
      | error e => simp at this
    · cases h

/-- A target that yields a value was called. -/
theorem target_called {S : Sem Op V E W} {g : Graph Op} (hw : WF g) {fuel : Nat} {us : List Nat} (ht : ∀ t ∈ us, t < g.nodes.length)
    {feeds : List (Feed V)} {env : List V} {w : W} {res : EvalResult V E W} (h : eval S g fuel us feeds env w = some (.ok res))
    (hok : ∀ r ∈ res.results, ∃ v, r = .ok v) {u : Nat} (hu : u ∈ us) (ho : IsOp g u) : (u, true) ∈ res.log := by
  obtain ⟨l1, l2, _, final, l3, _, l5⟩ := eval_log hw ht h
  obtain ⟨⟨a, fl⟩, hm, rfl⟩ := List.mem_map.1 ((l2 u).2 ⟨u, hu, ho, .refl⟩)
  cases fl with
  | true => exact hm
  | false =>
    exfalso
    obtain ⟨n, cv, hn, _, _, hf⟩ := execList_final l3 l1 hm
    obtain ⟨_, e, _, hr⟩ := hf rfl
    obtain ⟨j, hj, hji⟩ := List.mem_iff_getElem.1 hu
    obtain ⟨r, h1, h2⟩ := (forall₂_get l5).2 j a (by rw [List.getElem?_eq_getElem hj, hji])
    obtain ⟨v, rfl⟩ := hok r (List.mem_of_getElem? h1)
    obtain ⟨m, hm', hp, hv⟩ := ho
    cases h2 with
    | variable_ hn' hv' => rw [hm'] at hn'; cases hn'; rw [hv] at hv'; cases hv'
    | placeholder hn' _ hf => obtain ⟨_, _, hp', _⟩ := hf; rw [hm'] at hn'; cases hn'; rw [hp] at hp'; cases hp'
    | result _ h3 _ => rw [hr] at h3; cases h3

theorem isUpdate_isOp {g : Graph Op} (hw : WF g) {o : Op} {pv : Nat} {svs : List Nat} {u : Nat} {gr : Incoming}
    (h : IsUpdate g o pv svs u gr) : IsOp g u := by
  obtain ⟨n, p, ss, hn, _, hin, _⟩ := h
  rw [isOp_iff hn]
  cases hl : n.isLeafInput with
  | false => rfl
  | true => have := hw.leafSource _ _ hn hl; simp [this] at hin

theorem isUpdate_grad_unique {g : Graph Op} {o o' : Op} {pv pv' : Nat} {svs svs' : List Nat} {u : Nat} {gr gr' : Incoming}
    (h : IsUpdate g o pv svs u gr) (h' : IsUpdate g o' pv' svs' u gr') : gr = gr' ∧ pv = pv' := by
  obtain ⟨n, p, ss, hn, _, hin, hp, _⟩ := h
  obtain ⟨n', p', ss', hn', _, hin', hp', _⟩ := h'
  rw [hn] at hn'; cases hn'
  rw [hin] at hin'; cases hin'
  exact ⟨rfl, mutVar_unique hp hp'⟩

open Classical in
/-- If `u` is the only update of the variable among the executed ops and was called, its gradient is the only one. -/
theorem gradsRead_single {S : Sem Op V E W} {g : Graph Op} {feeds : List (Feed V)} {env : List V} {w : W} {o : Op} {pv : Nat} {svs : List Nat}
    {log : List (Nat × Bool)} {s' : ExecState V E W} (h : ExecList S g feeds (.start env w) log s') (hnd : (log.map Prod.fst).Nodup)
    {u : Nat} {gr : Incoming} (hu : IsUpdate g o pv svs u gr) (hcall : (u, true) ∈ log)
    (honly : ∀ a gr', a ∈ log.map Prod.fst → IsUpdate g o pv svs a gr' → a = u) :
    ∃ x, InputRead S g feeds env w log u gr x ∧ GradsRead S g feeds env w o pv svs log [x] := by
  have hu' := hu
  obtain ⟨n, p, ss, hn, _, hin, _⟩ := hu'
  obtain ⟨x, hx⟩ := inputRead_of_called h hcall hn (i := gr) (by simp [hin])
  refine ⟨x, hx, ?_⟩
  have hcalls : updateCalls g o pv svs log = [u] := by
    obtain ⟨pre, post, rfl⟩ := List.append_of_mem hcall
    simp only [List.map_append, List.map_cons, List.nodup_append, List.nodup_cons] at hnd
    have hpre : pre.filter (fun e => decide (e.2 = true ∧ ∃ gr, IsUpdate g o pv svs e.1 gr)) = [] := by
      rw [List.filter_eq_nil_iff]
      intro e he hd
      obtain ⟨_, gr', hgr'⟩ := of_decide_eq_true hd
      have hem : e.1 ∈ pre.map Prod.fst := List.mem_map.2 ⟨e, he, rfl⟩
      exact hnd.2.2 e.1 hem u (by simp) (honly e.1 gr' (by simp only [List.map_append, List.mem_append]; exact .inl hem) hgr')
    have hpost : post.filter (fun e => decide (e.2 = true ∧ ∃ gr, IsUpdate g o pv svs e.1 gr)) = [] := by
      rw [List.filter_eq_nil_iff]
      intro e he hd
      obtain ⟨_, gr', hgr'⟩ := of_decide_eq_true hd
      have hem : e.1 ∈ post.map Prod.fst := List.mem_map.2 ⟨e, he, rfl⟩
      have := honly e.1 gr' (by simp only [List.map_append, List.map_cons, List.mem_append, List.mem_cons]; exact .inr (.inr hem)) hgr'
      rw [this] at hem
      exact hnd.2.1.1 hem
    unfold updateCalls
    rw [List.filter_append, hpre, List.nil_append, List.filter_cons, if_pos (by simp; exact ⟨gr, hu⟩), hpost]
    rfl
  unfold GradsRead
  rw [hcalls]
  exact .cons ⟨gr, hu, hx⟩ .nil

/-- The common part of the theorems about `update`. -/
theorem updatesOnce_of_built {O : Ops Op} {S : Sem Op V E W} {o : Op} {g g' : Graph Op} (hw : WF g) {pgs : List (Nat × Nat)} {us : List Nat}
    (hgrow : Grows O g g') (hus : ∀ u ∈ us, u < g'.nodes.length) (hgr : ∀ pg ∈ pgs, pg.2 < g.nodes.length)
    (hro : ∀ a vid, Needed g (pgs.map Prod.snd) a → ¬ MayWrite g a vid)
    {B : Nat × Nat → Nat → Nat → List Nat → Prop} (hB : ∀ pg u vid svs, B pg u vid svs → IsUpdate g' o vid svs u { id := pg.2 })
    (hb : List.Forall₂ (fun pg u => ∃ vid svs, B pg u vid svs) pgs us)
    {j u vid : Nat} {svs : List Nat} {pg : Nat × Nat} (hj : pgs[j]? = some pg) (hju : us[j]? = some u) (hbj : B pg u vid svs)
    (hdis : ∀ (k : Nat) pg' u' vid' svs', pgs[k]? = some pg' → us[k]? = some u' → B pg' u' vid' svs' → k ≠ j →
      ∀ x ∈ vid :: svs, x ∉ vid' :: svs') :
    UpdatesOnce S o g' us vid svs u pg.2 := by
  have hw' := hgrow.wf hw
  have hup : ∀ u' ∈ us, ∃ (k : Nat) (pg' : Nat × Nat) (vid' : Nat) (svs' : List Nat), us[k]? = some u' ∧ pgs[k]? = some pg' ∧ B pg' u' vid' svs' := by
    intro u' hu'
    obtain ⟨k, hk, hku⟩ := List.mem_iff_getElem.1 hu'
    have hk' : k < pgs.length := by rw [hb.length_eq]; exact hk
    obtain ⟨u'', h1, vid', svs', h2⟩ := (forall₂_get hb).2 k _ (List.getElem?_eq_getElem hk')
    rw [List.getElem?_eq_getElem hk, hku] at h1
    cases h1
    exact ⟨k, pgs[k], vid', svs', by rw [List.getElem?_eq_getElem hk, hku], List.getElem?_eq_getElem hk', h2⟩
  have hneed : ∀ {a}, Needed g' us a → a ∈ us ∨ Needed g (pgs.map Prod.snd) a := by
    intro a ha
    refine needed_updates hw hgrow (grs := pgs.map Prod.snd) ?_ ?_ ha
    · intro gr hgm
      obtain ⟨pg', h1, rfl⟩ := List.mem_map.1 hgm
      exact hgr pg' h1
    · intro u' hu'
      obtain ⟨k, pg', vid', svs', _, h2, h3⟩ := hup u' hu'
      exact ⟨vid', svs', pg'.2, o, List.mem_map.2 ⟨pg', List.mem_of_getElem? h2, rfl⟩, hB _ _ _ _ h3⟩
  have hback : ∀ {a}, Needed g (pgs.map Prod.snd) a → ∀ x, ¬ MayWrite g' a x := by
    rintro a ha x ⟨n, hn, i, hi, hal, m, hm, hp, hv⟩
    have hao : IsOp g a := by
      obtain ⟨t, _, ho, hr⟩ := ha
      rcases ReflTransGen.cases_tail hr with rfl | ⟨c, _, hc⟩
      · exact ho
      · exact hc.2
    obtain ⟨n', hn', _⟩ := hao
    have := hgrow.node hn'
    rw [hn] at this; cases this
    have hil := hw.closed a _ hn' i hi
    have h1 := hgrow.node (List.getElem?_eq_getElem hil)
    rw [hm] at h1; cases h1
    exact hro a x ha ⟨_, hn', i, hi, hal, _, List.getElem?_eq_getElem hil, hp, hv⟩
  have hiu := hB _ _ _ _ hbj
  have hself : ∀ a x, Needed g' us a → x ∈ vid :: svs → MayWrite g' a x → a = u := by
    intro a x ha hx hm
    rcases hneed ha with h1 | h1
    · obtain ⟨k, pg', vid', svs', h2, h3, h4⟩ := hup a h1
      by_cases hkj : k = j
      · subst hkj
        rw [hju] at h2; cases h2; rfl
      · exact absurd ((isUpdate_mayWrite (hB _ _ _ _ h4)).1 hm) (hdis k pg' a vid' svs' h3 h2 h4 hkj x hx)
    · exact absurd hm (hback h1 x)
  refine ⟨?_, hiu, ?_⟩
  · intro a x ha hx hm
    have := hself a x ha hx hm
    subst this
    exact ⟨_, hiu⟩
  · intro fuel feeds env w env' hrun
    obtain ⟨res, h1, h2, h3⟩ := runUpdates_ok hrun
    obtain ⟨l1, l2, _, final, l3, _, _⟩ := eval_log hw' hus h1
    have hcall := target_called hw' hus h1 h3 (List.mem_of_getElem? hju) (isUpdate_isOp hw' hiu)
    obtain ⟨x, hx1, hx2⟩ := gradsRead_single l3 l1 hiu hcall (fun a gr' ha hau =>
      hself a vid ((l2 a).1 ha) (by simp) ((isUpdate_mayWrite hau).2 (by simp)))
    exact ⟨res, x, h1, h2, hx1, hx2⟩

theorem adamNames_separate (v v' : Nat) (s : Str) (h : s ∈ adamNames v) (h' : s ∈ adamNames v') : v = v' := by
  simp only [adamNames, List.mem_cons, List.not_mem_nil, or_false] at h h'
  exact isAdamName_inj h h'

theorem singleNames_separate (v v' : Nat) (s : Str) (h : s ∈ singleNames v) (h' : s ∈ singleNames v') : v = v' := by
  simp only [singleNames, List.mem_cons, List.not_mem_nil, or_false] at h h'
  exact decimal_inj (h.symm.trans h')

/-- A run of updates changes only variables that the update ops were built for. -/
theorem runUpdates_frame {O : Ops Op} {S : Sem Op V E W} {o : Op} {g g' : Graph Op} (hw : WF g) (hreach : Reachable O g') (d1 : Grows O g g')
    {pgs : List (Nat × Nat)} {us : List Nat} (hus : ∀ u ∈ us, u < g'.nodes.length) (hpg : ∀ pg ∈ pgs, pg.2 < g.nodes.length)
    (hro : ∀ a vid, Needed g (pgs.map Prod.snd) a → ¬ MayWrite g a vid) {B : Nat × Nat → Nat → Nat → List Nat → Prop}
    (hB : ∀ pg u vid svs, B pg u vid svs → IsUpdate g' o vid svs u { id := pg.2 })
    (hb : List.Forall₂ (fun pg u => ∃ vid svs, B pg u vid svs) pgs us)
    {fuel : Nat} {feeds : List (Feed V)} {env : List V} {w : W} {env' : List V} (hrun : runUpdates S g' fuel us feeds env w = some (.ok env'))
    {vid : Nat} (hvid : ∀ pg ∈ pgs, ∀ u v svs, B pg u v svs → vid ∉ v :: svs) : env'[vid]? = env[vid]? := by
  obtain ⟨res, h1, rfl, _⟩ := runUpdates_ok hrun
  obtain ⟨l1, l2, _, final, l3, l4, _⟩ := eval_log hreach.wf hus h1
  rw [← l4]
  refine execList_frame l3 ?_
  intro a ha hm
  have hneed := (l2 a).1 (List.mem_map.2 ⟨_, ha, rfl⟩)
  have hin : ∀ u ∈ us, ∃ pg ∈ pgs, ∃ v svs, B pg u v svs := by
    intro u hu
    obtain ⟨k, hk, hku⟩ := List.mem_iff_getElem.1 hu
    have hk' : k < pgs.length := by rw [hb.length_eq]; exact hk
    obtain ⟨u'', e1, v, svs, e2⟩ := (forall₂_get hb).2 k _ (List.getElem?_eq_getElem hk')
    rw [List.getElem?_eq_getElem hk, hku] at e1
    cases e1
    exact ⟨pgs[k], by simp, v, svs, e2⟩
  rcases needed_updates hw d1 (grs := pgs.map Prod.snd) (fun gr hgm => by
      obtain ⟨pg', e1, rfl⟩ := List.mem_map.1 hgm
      exact hpg pg' e1) (fun u hu => by
      obtain ⟨pg, e1, v, svs, e2⟩ := hin u hu
      exact ⟨v, svs, pg.2, o, List.mem_map.2 ⟨pg, e1, rfl⟩, hB _ _ _ _ e2⟩) hneed with h2 | h2
  · obtain ⟨pg, e1, v, svs, e2⟩ := hin a h2
    exact hvid pg e1 a v svs e2 ((isUpdate_mayWrite (hB _ _ _ _ e2)).1 hm)
  · obtain ⟨n, hn, i, hi, hal, m, hm', hp, hv⟩ := hm
    have hao : IsOp g a := by
      obtain ⟨t, _, ho, hr⟩ := h2
      rcases ReflTransGen.cases_tail hr with rfl | ⟨c, _, hc⟩
      · exact ho
      · exact hc.2
    obtain ⟨n', hn', _⟩ := hao
    have := d1.node hn'
    rw [hn] at this; cases this
    have hil := hw.closed a _ hn' i hi
    have h3 := d1.node (List.getElem?_eq_getElem hil)
    rw [hm'] at h3; cases h3
    exact hro a vid h2 ⟨_, hn', i, hi, hal, _, List.getElem?_eq_getElem hil, hp, hv⟩

end Verif.Props
