import Verif.Lemmas.StepGraph

/-! A loss and the tensor of `get_update_op` evaluated together, when every variable is read before it is updated. -/

namespace Verif.Eval
open Verif Verif.Spec Verif.Graph Verif.Opt Verif.Props Verif.Gradient Relation
variable {Op V E W : Type}

set_option linter.unusedSectionVars false

/-- The conditions on the loss `y`, the parameters and their gradients: `f` gives the meanings of the ops below them, `G` the values of the gradients, `L` the value of the loss.
`inTime`: what reads a variable for a later gradient or for the loss is needed for earlier gradients or for the gradient of this variable. (The pairs are used from last to first.) -/
structure TimelyOk (f : Op → List (OpInput V) → Option (Except E (List V))) (S : Sem Op V E W) (o : Op) (St : Nat → List Nat → Prop) (g : Graph Op)
    (pgs : List (Nat × Nat)) (y : Nat) (feeds : List (Feed V)) (env : List V) (G : Nat × Nat → V) (z L : V) : Prop where
  distinct : (pgs.map Prod.fst).Nodup
  separate : ∀ pg ∈ pgs, ∀ pg' ∈ pgs, ∀ v svs v' svs', VarTensor g pg.1 v → VarTensor g pg'.1 v' → St v svs → St v' svs' → v ≠ v' →
    ∀ x ∈ v :: svs, x ∉ v' :: svs'
  state : ∀ v svs svs', St v svs → St v svs' → svs = svs'
  means : ∀ pg ∈ pgs, ∃ ys, Means f S.shapeOf g feeds env pg.2 (.ok (G pg :: ys))
  loss : ∃ ys, Means f S.shapeOf g feeds env y (.ok (L :: ys))
  pure : ∀ a n, Needed g (y :: pgs.map Prod.snd) a → g.nodes[a]? = some n → Computes S n.op (f n.op)
  ro : ∀ a vid, Needed g (y :: pgs.map Prod.snd) a → ¬ MayWrite g a vid
  inTime : ∀ before pg after, pgs.reverse = before ++ pg :: after → ∀ v svs, VarTensor g pg.1 v → St v svs → ∀ x ∈ v :: svs, ∀ a,
    Needed g (y :: after.map Prod.snd) a → ReadsVar g a x → Needed g ((before ++ [pg]).map Prod.snd) a
  runs : ∀ pg ∈ pgs, ∀ v svs, VarTensor g pg.1 v → St v svs → ∃ p ss, Holds env (v :: svs) (p :: ss) ∧
    ∀ w, ∃ w' ws, S.compute o w (⟨.rdWr, p⟩ :: ⟨.nonVariable, G pg⟩ :: ss.map fun s => ⟨.rdWr, s⟩) = .done w' ws [z] (.ok ())

theorem forall₂_split {α β : Type} {R : α → β → Prop} : ∀ {bs : List β} {b : β} {cs : List β} {as : List α}, List.Forall₂ R as (bs ++ b :: cs) →
    ∃ as1 a as2, as = as1 ++ a :: as2 ∧ List.Forall₂ R as1 bs ∧ R a b ∧ List.Forall₂ R as2 cs
  | [], b, cs, as, h => by
    cases h with
    | cons h1 h2 => exact ⟨[], _, _, rfl, .nil, h1, h2⟩
  | x :: bs, b, cs, as, h => by
    cases h with
    | cons h1 h2 =>
      obtain ⟨as1, a, as2, rfl, k1, k2, k3⟩ := forall₂_split h2
      exact ⟨_ :: as1, a, as2, rfl, .cons h1 k1, k2, k3⟩

theorem forall₂_right {α β : Type} {R : α → β → Prop} {as : List α} {bs : List β} (h : List.Forall₂ R as bs) {b : β} (hb : b ∈ bs) : ∃ a ∈ as, R a b := by
  induction h with
  | nil => cases hb
  | cons h1 _ ih =>
    rcases List.mem_cons.1 hb with rfl | hb
    · exact ⟨_, by simp, h1⟩
    · obtain ⟨a, h2, h3⟩ := ih hb
      exact ⟨a, by simp [h2], h3⟩

theorem forall₂_left {α β : Type} {R : α → β → Prop} {as : List α} {bs : List β} (h : List.Forall₂ R as bs) {a : α} (ha : a ∈ as) : ∃ b ∈ bs, R a b := by
  induction h with
  | nil => cases ha
  | cons h1 _ ih =>
    rcases List.mem_cons.1 ha with rfl | ha
    · exact ⟨_, by simp, h1⟩
    · obtain ⟨a, h2, h3⟩ := ih ha
      exact ⟨a, by simp [h2], h3⟩

variable {O : Ops Op} {addN o : Op} {St : Nat → List Nat → Prop} {g g' : Graph Op} {pgs : List (Nat × Nat)} {us : List Nat} {up y : Nat}
  {f : Op → List (OpInput V) → Option (Except E (List V))} {S : Sem Op V E W} {feeds : List (Feed V)} {env : List V} {G : Nat × Nat → V} {z L : V}

theorem StepGraph.of (h : StepGraph O addN o St g g' pgs us up) {u : Nat} (hu : u ∈ us) : ∃ (k : Nat) (pg : Nat × Nat) (vid : Nat) (svs : List Nat),
    us[k]? = some u ∧ pgs[k]? = some pg ∧ VarTensor g pg.1 vid ∧ St vid svs ∧ IsUpdate g' o vid svs u { id := pg.2 } := by
  obtain ⟨k, hk, hku⟩ := List.mem_iff_getElem.1 hu
  have hk' : k < pgs.length := by rw [h.built.length_eq]; exact hk
  obtain ⟨u'', h1, vid', svs', h2⟩ := (forall₂_get h.built).2 k _ (List.getElem?_eq_getElem hk')
  rw [List.getElem?_eq_getElem hk, hku] at h1
  cases h1
  exact ⟨k, pgs[k], vid', svs', by rw [List.getElem?_eq_getElem hk, hku], List.getElem?_eq_getElem hk', h2⟩

theorem TimelyOk.apart (hw : WF g) (hG : TimelyOk f S o St g pgs y feeds env G z L) {k k' : Nat} {pg pg' : Nat × Nat}
    {v v' : Nat} {svs svs' : List Nat} (hk : pgs[k]? = some pg) (hk' : pgs[k']? = some pg') (hv : VarTensor g pg.1 v) (hv' : VarTensor g pg'.1 v')
    (hs : St v svs) (hs' : St v' svs') (hne : k ≠ k') : ∀ x ∈ v :: svs, x ∉ v' :: svs' := by
  refine hG.separate pg (List.mem_of_getElem? hk) pg' (List.mem_of_getElem? hk') v svs v' svs' hv hv' hs hs' ?_
  rintro rfl
  obtain ⟨n1, a1, a2⟩ := hv
  obtain ⟨n2, b1, b2⟩ := hv'
  have e1 := (hw.cache v pg.1).2 ⟨n1, a1, a2⟩
  have e2 := (hw.cache v pg'.1).2 ⟨n2, b1, b2⟩
  rw [e1] at e2
  refine hne ?_
  have hk1 := (List.getElem?_eq_some_iff.1 hk).1
  have hj1 := (List.getElem?_eq_some_iff.1 hk').1
  refine (hG.distinct.getElem_inj_iff (hi := by simpa using hk1) (hj := by simpa using hj1)).1 ?_
  simp [(List.getElem?_eq_some_iff.1 hk).2, (List.getElem?_eq_some_iff.1 hk').2, Option.some.inj e2]

section
variable (hw : WF g) (h : StepGraph O addN o St g g' pgs us up) (hT : TimelyOk f S o St g pgs y feeds env G z L)
include hw h hT

theorem timely_grad {pg : Nat × Nat} (hp : pg ∈ pgs) : IsOp g pg.2 := let ⟨_, h⟩ := hT.means pg hp; means_isOp h

theorem timely_loss : IsOp g y := let ⟨_, h⟩ := hT.loss; means_isOp h

theorem timely_wf : WF g' := h.grows.wf hw

theorem timely_below {u a : Nat} (hu : u ∈ us) (ha : ReflTransGen (Uses g') u a) : a = u ∨ ∃ pg ∈ pgs, Needed g [pg.2] a := by
  obtain ⟨k, pg, v, svs, _, hk, _, _, hiu⟩ := h.of hu
  have hp := List.mem_of_getElem? hk
  rcases ReflTransGen.cases_head ha with rfl | ⟨c, h1, h2⟩
  · exact .inl rfl
  · exact .inr ⟨pg, hp, (isUpdate_below hw h.grows hiu (timely_grad hw h hT hp)).1 (TransGen.head' h1 h2)⟩

theorem timely_up {a : Nat} (ha : ReflTransGen (Uses g') up a) : a = up ∨ ∃ u ∈ us, ReflTransGen (Uses g') u a := by
  rcases h.up with h1 | ⟨_, _, _, n, hn, _, hin, _⟩
  · exact .inr ⟨up, by rw [h1]; simp, ha⟩
  · rcases ReflTransGen.cases_head ha with rfl | ⟨c, ⟨⟨n', hn', i, hi, rfl⟩, _⟩, h2⟩
    · exact .inl rfl
    · rw [hn] at hn'; cases hn'
      rw [hin] at hi
      obtain ⟨x, hx, rfl⟩ := List.mem_map.1 hi
      exact .inr ⟨x, hx, h2⟩

theorem timely_y {a : Nat} (ha : ReflTransGen (Uses g') y a) : Needed g [y] a :=
  ⟨y, by simp, timely_loss hw h hT, old_path hw h.grows ha (isOp_lt (timely_loss hw h hT))⟩

theorem timely_needed {a : Nat} (ha : Needed g' [up, y] a) : a ∈ us ∨ a = up ∨ Needed g (y :: pgs.map Prod.snd) a := by
  obtain ⟨t, ht, _, hr⟩ := ha
  simp only [List.mem_cons, List.not_mem_nil, or_false] at ht
  rcases ht with rfl | rfl
  · rcases timely_up hw h hT hr with rfl | ⟨u, hu, hr⟩
    · exact .inr (.inl rfl)
    · rcases timely_below hw h hT hu hr with rfl | ⟨pg, hp, t, h1, h2⟩
      · exact .inl hu
      · exact .inr (.inr ⟨t, by rw [List.mem_singleton.1 h1]; exact List.mem_cons_of_mem _ (List.mem_map.2 ⟨pg, hp, rfl⟩), h2⟩)
  · obtain ⟨t, h1, h2⟩ := timely_y hw h hT hr
    exact .inr (.inr ⟨t, by rw [List.mem_singleton.1 h1]; simp, h2⟩)

theorem timely_clean {a : Nat} (ha : Needed g (y :: pgs.map Prod.snd) a) : Clean g' a := by
  obtain ⟨t, ht, ho, hr⟩ := ha
  intro b vid hab hm
  have h1 := old_path hw h.grows hab (isOp_lt (needed_isOp ⟨t, ht, ho, hr⟩))
  have h2 : Needed g (y :: pgs.map Prod.snd) b := ⟨t, ht, ho, hr.trans h1⟩
  exact hT.ro b vid h2 (mayWrite_old hw h.grows (isOp_lt (needed_isOp h2)) hm)

theorem timely_isOp {u : Nat} (hu : u ∈ us) : IsOp g' u := by
  obtain ⟨_, _, _, _, _, _, _, _, hiu⟩ := h.of hu
  exact isUpdate_isOp (timely_wf hw h hT) hiu

theorem timely_isOp_up : IsOp g' up := by
  rcases h.up with h1 | ⟨_, _, _, n, hn, _, _, hp, hv⟩
  · exact timely_isOp hw h hT (by rw [h1]; simp)
  · exact ⟨n, hn, hp, hv⟩

theorem timely_dirty {u : Nat} (hu : u ∈ us) : ¬ Clean g' u := by
  obtain ⟨_, _, v, _, _, _, _, _, hiu⟩ := h.of hu
  exact fun hc => hc u v .refl ((isUpdate_mayWrite hiu).2 (by simp))

theorem timely_uses_up (hup : up ∉ us) {u : Nat} (hu : u ∈ us) : Uses g' up u := by
  rcases h.up with h1 | ⟨_, _, _, n, hn, _, hin, _⟩
  · exact absurd (by rw [h1]; simp) hup
  · exact ⟨⟨n, hn, { id := u }, by rw [hin]; exact List.mem_map.2 ⟨u, hu, rfl⟩, rfl⟩, timely_isOp hw h hT hu⟩

theorem timely_dirty_up : ¬ Clean g' up := by
  by_cases hup : up ∈ us
  · exact timely_dirty hw h hT hup
  · intro hc
    obtain ⟨u, hu⟩ : ∃ u, u ∈ us := by
      rcases h.up with h1 | ⟨_, _, h1, _⟩
      · exact ⟨up, by rw [h1]; simp⟩
      · exact List.exists_mem_of_ne_nil _ h1
    exact timely_dirty hw h hT hu fun b vid hb => hc b vid (.head (timely_uses_up hw h hT hup hu) hb)

/-- Only the updates write. -/
theorem timely_writes {a vid : Nat} (ha : Needed g' [up, y] a) (hm : MayWrite g' a vid) : a ∈ us := by
  rcases timely_needed hw h hT ha with h1 | rfl | h1
  · exact h1
  · rcases h.up with h1 | ⟨_, _, _, n, hn, _, hin, _⟩
    · rw [h1]; simp
    · obtain ⟨n', hn', i, hi, h2, _⟩ := hm
      rw [hn] at hn'; cases hn'
      rw [hin] at hi
      obtain ⟨x, _, rfl⟩ := List.mem_map.1 hi
      cases h2
  · exact absurd hm (timely_clean hw h hT h1 a vid .refl)

/-- The order of execution. -/
theorem timely_visits {l : List Nat} (hl : Visits g' [] [up, y] l) : Visits g' [] (us.reverse ++ [up, y]) l := by
  rcases h.up with h1 | ⟨_, _, _, n, hn, _, hin, _⟩
  · rw [h1]
    obtain ⟨d, h2, h3⟩ := Visits.split (xs := [up]) (ys := [y]) hl
    refine h2.trans (.skip (.inl ?_) h3)
    exact (h2.mem_iff up).2 ⟨up, by simp, timely_isOp_up hw h hT, .refl⟩
  · have := hl.inputs_first (hl.nodup h.acyclic .nil) (timely_isOp_up hw h hT) hn
    rwa [hin, List.map_map, show us.map (Incoming.id ∘ fun x => ({ id := x } : Incoming)) = us by simp [Function.comp_def]] at this

theorem timely_after {a : Nat} {as : List (Nat × Nat)} {bs : List Nat} (hf : List.Forall₂ (fun (pg : Nat × Nat) u => ∃ vid svs, VarTensor g pg.1 vid ∧ St vid svs ∧ IsUpdate g' o vid svs u { id := pg.2 }) as bs)
    (has : ∀ pg ∈ as, pg ∈ pgs) (hbs : ∀ b ∈ bs, b ∈ us) (hc : Clean g' a) {t : Nat} (ht : t ∈ bs) (hr : ReflTransGen (Uses g') t a) : Needed g (as.map Prod.snd) a := by
  obtain ⟨pg, hp, v, svs, _, _, hiu⟩ := forall₂_right hf ht
  rcases ReflTransGen.cases_head hr with rfl | ⟨c, h1, h2⟩
  · exact absurd hc (timely_dirty hw h hT (hbs _ ht))
  · obtain ⟨x, hx, h3⟩ := (isUpdate_below hw h.grows hiu (timely_grad hw h hT (has _ hp))).1 (TransGen.head' h1 h2)
    exact ⟨x, by rw [List.mem_singleton.1 hx]; exact List.mem_map.2 ⟨pg, hp, rfl⟩, h3⟩

theorem timely_readsFirst : ReadsFirst g' (us.reverse ++ [up, y]) := by
  intro before u after vid he hub hm
  have hu : u ∈ us := by
    have h1 : u ∈ us.reverse ++ [up, y] := by rw [he]; simp
    rcases List.mem_append.1 h1 with h1 | h1
    · simpa using h1
    · exact timely_writes hw h hT ⟨u, h1, mayWrite_isOp (timely_wf hw h hT) hm, .refl⟩ hm
  obtain ⟨after', hrev, rfl⟩ : ∃ after', us.reverse = before ++ u :: after' ∧ after = after' ++ [up, y] := by
    rcases List.append_eq_append_iff.1 he with ⟨m, h1, _⟩ | ⟨m, h1, h2⟩
    · exact absurd (by rw [h1]; simp [hu]) hub
    · cases m with
      | nil => exact absurd (by rw [List.append_nil] at h1; rw [← h1]; simpa using hu) hub
      | cons x m =>
        simp only [List.cons_append, List.cons.injEq] at h2
        obtain ⟨rfl, rfl⟩ := h2
        exact ⟨m, h1, rfl⟩
  have hf := List.forall₂_reverse_iff.2 h.built
  rw [hrev] at hf
  obtain ⟨b', pg, a', hpg, f1, ⟨v, svs, hv, hs, hiu⟩, f2⟩ := forall₂_split hf
  have hsub : ∀ x ∈ before ++ u :: after', x ∈ us := fun x hx => by rw [← hrev] at hx; simpa using hx
  have hpsub : ∀ x ∈ b' ++ pg :: a', x ∈ pgs := fun x hx => by rw [← hpg] at hx; simpa using hx
  constructor
  · rintro ⟨t, ht, _, hr⟩
    rcases timely_below hw h hT (hsub t (by simp [ht])) hr with rfl | ⟨pg, _, h1⟩
    · exact hub ht
    · have := isOp_lt (needed_isOp h1)
      have := h.new u hu
      omega
  · intro a ha hc hr
    have key : Needed g' (before ++ [u]) a ∨ Needed g (y :: a'.map Prod.snd) a := by
      have hlater : ∀ t ∈ after', ReflTransGen (Uses g') t a → Needed g (y :: a'.map Prod.snd) a := fun t ht hr => by
        obtain ⟨x, hx, h3⟩ := timely_after hw h hT f2 (fun p hp => hpsub p (by simp [hp])) (fun b hb => hsub b (by simp [hb])) hc ht hr
        exact ⟨x, List.mem_cons_of_mem _ hx, h3⟩
      obtain ⟨t, ht, ho, hr⟩ := ha
      rcases List.mem_append.1 ht with ht | ht
      · exact .inr (hlater t ht hr)
      · simp only [List.mem_cons, List.not_mem_nil, or_false] at ht
        rcases ht with rfl | rfl
        · rcases timely_up hw h hT hr with rfl | ⟨u', hu', hr⟩
          · exact absurd hc (timely_dirty_up hw h hT)
          · have : u' ∈ before ++ u :: after' := by rw [← hrev]; simpa using hu'
            rw [show before ++ u :: after' = (before ++ [u]) ++ after' by simp] at this
            rcases List.mem_append.1 this with h1 | h1
            · exact .inl ⟨u', h1, timely_isOp hw h hT hu', hr⟩
            · exact .inr (hlater u' h1 hr)
        · obtain ⟨x, hx, h3⟩ := timely_y hw h hT hr
          exact .inr ⟨x, by rw [List.mem_singleton.1 hx]; simp, h3⟩
    rcases key with h1 | h1
    · exact h1
    · have hlt := isOp_lt (needed_isOp h1)
      obtain ⟨x, hx, ho, hr'⟩ := hT.inTime b' pg a' hpg v svs hv hs vid ((isUpdate_mayWrite hiu).1 hm) a h1 (readsVar_old hw h.grows hlt hr)
      obtain ⟨px, hpx, rfl⟩ := List.mem_map.1 hx
      have hpx' : px ∈ pgs := hpsub px (by rcases List.mem_append.1 hpx with h1 | h1 <;> simp_all)
      have f3 : ∃ t ∈ before ++ [u], ∃ vid svs, IsUpdate g' o vid svs t { id := px.2 } := by
        rcases List.mem_append.1 hpx with h1 | h1
        · obtain ⟨t, ht, vid, svs, _, _, h2⟩ := forall₂_left f1 h1
          exact ⟨t, by simp [ht], vid, svs, h2⟩
        · rw [List.mem_singleton.1 h1]
          exact ⟨u, by simp, v, svs, hiu⟩
      obtain ⟨t, ht, vid', svs', hit⟩ := f3
      exact ⟨t, ht, isUpdate_isOp (timely_wf hw h hT) hit, ((isUpdate_below hw h.grows hit (timely_grad hw h hT hpx')).2 ⟨px.2, by simp, ho, hr'⟩).to_reflTransGen⟩

/-- The sum, if there is one. -/
def sumOf (us : List Nat) (up : Nat) : List Nat := if up ∈ us then [] else [up]

theorem timely_ordered {P : V → Prop} (hsum : ∀ k w, 0 < k → ∃ r, P r ∧ S.compute addN w (List.replicate k ⟨.nonVariable, z⟩) = .done w [] [r] (.ok ()))
    {l : List Nat} (hl : Visits g' [] [up, y] l) : OrderedOk f S g' feeds env us (sumOf us up) z P l := by
  have hnd := hl.nodup h.acyclic .nil
  have hext : Extends g g' := fun _ _ hn => h.grows.node hn
  have hw' := timely_wf hw h hT
  have hcl : ∀ {a : Nat}, a ∈ l → Clean g' a → Needed g (y :: pgs.map Prod.snd) a := by
    intro a ha hc
    rcases timely_needed hw h hT ((hl.mem_iff a).1 ha) with h1 | rfl | h1
    · exact absurd hc (timely_dirty hw h hT h1)
    · exact absurd hc (timely_dirty_up hw h hT)
    · exact h1
  refine ⟨hnd, hl.order (fun pre a post e => by simp at e), ?_, ?_, ?_, ?_, fun u hu => timely_isOp hw h hT hu, ?_, ?_, ?_⟩
  · intro a ha
    rcases timely_needed hw h hT ((hl.mem_iff a).1 ha) with h1 | rfl | h1
    · exact .inr (.inl h1)
    · by_cases hup : a ∈ us
      · exact .inr (.inl hup)
      · exact .inr (.inr (by simp [sumOf, hup]))
    · refine .inl ⟨timely_clean hw h hT h1, ?_⟩
      obtain ⟨t, ht, _, hr⟩ := h1
      rcases List.mem_cons.1 ht with rfl | ht
      · obtain ⟨ys, hm⟩ := hT.loss
        obtain ⟨r, hr⟩ := means_below hm hr
        exact ⟨r, hext.means hw.closed hr⟩
      · obtain ⟨pg, hp, rfl⟩ := List.mem_map.1 ht
        obtain ⟨ys, hm⟩ := hT.means pg hp
        obtain ⟨r, hr⟩ := means_below hm hr
        exact ⟨r, hext.means hw.closed hr⟩
  · intro a n ha hc hn
    have h1 := hcl ha hc
    exact hT.pure a n h1 (old_node h.grows (isOp_lt (needed_isOp h1)) hn)
  · refine readsFirst_late hw' (timely_visits hw h hT hl) hnd (fun a vid ha hm => ?_) (timely_readsFirst hw h hT)
    simp [timely_writes hw h hT ((hl.mem_iff a).1 ha) hm]
  · intro pre u post vid a hu he hr ha hm
    have hal : a ∈ l := by rw [he]; simp [ha]
    have hau := timely_writes hw h hT ((hl.mem_iff a).1 hal) hm
    have hne : u ≠ a := by
      rintro rfl
      rw [he, List.nodup_append] at hnd
      exact hnd.2.2 u ha u (by simp) rfl
    obtain ⟨k, pg, v, svs, hku, hk, hv, hs, hiu⟩ := h.of hu
    obtain ⟨k', pg', v', svs', hku', hk', hv', hs', hiu'⟩ := h.of hau
    have hkk : k ≠ k' := by
      rintro rfl
      rw [hku] at hku'
      exact hne (Option.some.inj hku')
    exact hT.apart hw hk hk' hv hv' hs hs' hkk vid (isUpdate_reads hiu (isOp_grows h.grows (timely_grad hw h hT (List.mem_of_getElem? hk))) hr)
      ((isUpdate_mayWrite hiu').1 hm)
  · intro u hu b hb
    obtain ⟨k, pg, v, svs, hku, hk, hv, hs, hiu⟩ := h.of hu
    rw [isUpdate_uses hiu hb]
    have hp := List.mem_of_getElem? hk
    exact timely_clean hw h hT ⟨pg.2, List.mem_cons_of_mem _ (List.mem_map.2 ⟨pg, hp, rfl⟩), timely_grad hw h hT hp, .refl⟩
  · intro u hu n hn
    obtain ⟨k, pg, v, svs, _, hk, hv, hs, hiu⟩ := h.of hu
    have hp := List.mem_of_getElem? hk
    obtain ⟨ys, hys⟩ := hT.means pg hp
    obtain ⟨p, ss, hh, hrun⟩ := hT.runs pg hp v svs hv hs
    obtain ⟨n', pi, si, hn', hno, hin, hpi, _, hsi⟩ := id hiu
    rw [hn] at hn'; cases hn'
    have hog := isOp_grows h.grows (timely_grad hw h hT hp)
    refine ⟨_, fun cv hcv => ?_, by rw [hno]; exact hrun⟩
    cases hh with
    | cons h1 h2 =>
      have hm := inputsAre_mut (shapeOf := S.shapeOf) (feeds := feeds) (cv := cv) (.cons hpi .nil) (.cons h1 .nil : Holds env [v] [p])
      rw [hin]
      cases hm with
      | cons h3 _ =>
        refine .cons h3 (.cons ?_ (inputsAre_mut hsi h2))
        have hu' : Uses g' u pg.2 := ⟨⟨n, hn, { id := pg.2 }, by rw [hin]; simp, rfl⟩, hog⟩
        exact .result hog (means_unique (hcv _ hu') (hext.means hw.closed hys)) rfl
  · intro a ha
    by_cases hup : up ∈ us
    · simp [sumOf, hup] at ha
    · have : a = up := by simpa [sumOf, hup] using ha
      subst this
      rcases h.up with h1 | ⟨_, _, h1, n, hn, hno, hin, hp, hv⟩
      · exact absurd (by rw [h1]; simp) hup
      · refine ⟨⟨n, hn, hp, hv⟩, n, hn, fun i hi => ?_, fun w => ?_⟩
        · rw [hin] at hi
          obtain ⟨x, hx, rfl⟩ := List.mem_map.1 hi
          exact ⟨hx, rfl⟩
        · rw [hno]
          exact hsum _ w (by rw [hin, List.length_map]; exact List.length_pos_iff.2 h1)

/-- **One step.** The evaluation of the loss and of the tensor of `get_update_op` returns; the loss is that before the step, and each parameter is updated once, with the value `G` of its
gradient. -/
theorem timely_step (hreach : Reachable O g) {P : V → Prop} (hz : P z) (hsum : ∀ k w, 0 < k → ∃ r, P r ∧ S.compute addN w (List.replicate k ⟨.nonVariable, z⟩) = .done w [] [r] (.ok ()))
    {fuel : Nat} (hfuel : 2 * (2 + edgeCount g') ≤ fuel) (w : W) :
    ∃ res r, eval S g' fuel [y, up] feeds env w = some (.ok res) ∧ res.results = [.ok L, .ok r] ∧ P r ∧
      ∀ pg ∈ pgs, ∀ v svs, VarTensor g pg.1 v → St v svs → ∀ env0 gs, Training O S o v svs env0 gs env → Training O S o v svs env0 (gs ++ [G pg]) res.env := by
  have hw' := timely_wf hw h hT
  have hoy := isOp_grows h.grows (timely_loss hw h hT)
  have hou := timely_isOp_up hw h hT
  have hne : y ≠ up := by
    rintro rfl
    refine timely_dirty_up hw h hT (timely_clean hw h hT ⟨y, by simp, timely_loss hw h hT, .refl⟩)
  have ht : ∀ t ∈ [y, up], t < g'.nodes.length := by
    intro t ht
    simp only [List.mem_cons, List.not_mem_nil, or_false] at ht
    rcases ht with rfl | rfl
    · exact isOp_lt hoy
    · exact isOp_lt hou
  have hext : Extends g g' := fun _ _ hn => h.grows.node hn
  obtain ⟨l, hl⟩ := visits_exist hw'.closed h.acyclic [up, y] (fun t h1 => ht t (by simp at h1 ⊢; exact h1.symm)) []
  have hO := timely_ordered hw h hT hsum hl
  obtain ⟨ly, hly⟩ := hT.loss
  have hly' := hext.means hw.closed hly
  have hcy : Clean g' y := timely_clean hw h hT ⟨y, by simp, timely_loss hw h hT, .refl⟩
  obtain ⟨res, hev⟩ := ordered_total hw' h.acyclic ht (by simpa using hne) (by simpa using hl) hO (by
    intro t ht
    simp only [List.mem_cons, List.not_mem_nil, or_false] at ht
    rcases ht with rfl | rfl
    · exact ⟨hoy, .inr (.inr ⟨hcy, _, _, hly'⟩)⟩
    · refine ⟨hou, ?_⟩
      by_cases hup : t ∈ us
      · exact .inl hup
      · exact .inr (.inl (by simp [sumOf, hup]))) hfuel w
  obtain ⟨l1, l2, l3, final, l4, l5, l6⟩ := eval_log hw' ht hev
  have hlog : l = res.log.map Prod.fst := by
    have := eval_visits hw' ht hev
    exact hl.unique (by simpa using this)
  have hlog' : l = res.log.map Prod.fst ++ [] := by rw [hlog]; simp
  have hmem : ∀ t ∈ [y, up], IsOp g' t → t ∈ res.log.map Prod.fst := fun t ht ho => (l2 t).2 ⟨t, ht, ho, .refl⟩
  have hresult : ∀ {t : Nat} {v : V} {vs : List V} {r : Except E V}, IsOp g' t → final.results t = some (.ok (v :: vs)) → TargetReturns S g' feeds final t r → r = .ok v := by
    rintro t v vs r ⟨n, hn, hp, hv⟩ hr htr
    cases htr with
    | variable_ hn' hv' => rw [hn] at hn'; cases hn'; rw [hv] at hv'; cases hv'
    | placeholder hn' _ hf => obtain ⟨_, _, hp', _⟩ := hf; rw [hn] at hn'; cases hn'; rw [hp] at hp'; cases hp'
    | result _ h7 h8 => rw [hr] at h7; cases h7; simp at h8; rw [h8]
    | failed _ h7 => rw [hr] at h7; cases h7
  have hry : final.results y = some (.ok (L :: ly)) := by
    obtain ⟨r, hr⟩ := execList_has l4 (hmem y (by simp) hoy)
    rw [hr, means_unique (hO.snapshot l4 hlog' hcy hr) hly']
  have hru : ∃ r, P r ∧ final.results up = some (.ok [r]) := by
    obtain ⟨e, he, heu⟩ := List.mem_map.1 (hmem up (by simp) hou)
    by_cases hup : up ∈ us
    · have := (hO.updates l4 hlog' e he (by rw [heu]; exact hup)).2
      rw [heu] at this
      exact ⟨z, hz, this⟩
    · have := hO.summed l4 hlog' e he (by rw [heu]; simp [sumOf, hup])
      rwa [heu] at this
  obtain ⟨r, hr, hru⟩ := hru
  refine ⟨res, r, hev, ?_, hr, ?_⟩
  · revert l6
    generalize res.results = rs
    intro l6
    cases l6 with
    | cons a l6 =>
      cases l6 with
      | cons b l6 =>
        cases l6
        rw [hresult hoy hry a, hresult hou hru b]
  intro pg hp v svs hv hs env0 gs htr
  obtain ⟨j, hj, hjp⟩ := List.mem_iff_getElem.1 hp
  have hj? : pgs[j]? = some pg := by rw [List.getElem?_eq_getElem hj, hjp]
  obtain ⟨u, hju, v1, svs1, hv1, hs1, hiu⟩ := (forall₂_get h.built).2 j _ hj?
  have : v1 = v := by
    obtain ⟨n, h1, h2⟩ := hv
    obtain ⟨n', h1', h2'⟩ := hv1
    rw [h1] at h1'; cases h1'; rw [h2] at h2'; exact (Option.some.inj h2').symm
  subst this
  have := hT.state _ _ _ hs hs1
  subst this
  have hu : u ∈ us := List.mem_of_getElem? hju
  have honly : ∀ a vid, Needed g' [y, up] a → vid ∈ v1 :: svs → MayWrite g' a vid → a = u := by
    intro a vid ha hvid hm
    have hau := timely_writes hw h hT (by obtain ⟨t, h1, h2⟩ := ha; exact ⟨t, by simp at h1 ⊢; exact h1.symm, h2⟩) hm
    obtain ⟨k', pg', v', svs', hku', hk', hv', hs', hiu'⟩ := h.of hau
    by_cases hkk : j = k'
    · subst hkk
      rw [hju] at hku'
      exact (Option.some.inj hku').symm
    · exact absurd ((isUpdate_mayWrite hiu').1 hm) (hT.apart hw hj? hk' hv hv' hs hs' hkk vid hvid)
  refine .evaluation (gs' := [G pg]) htr (by obtain ⟨cs, ids, h1, _⟩ := h.grows; exact hreach.all h1) ht hev (fun a vid ha hvid hm => ?_) ?_
  · rw [honly a vid ha hvid hm]
    exact ⟨_, hiu⟩
  have hul : u ∈ res.log.map Prod.fst := by
    rw [l2]
    by_cases hup : up ∈ us
    · rcases h.up with h1 | ⟨_, h1, _⟩
      · rw [h1] at hu
        rw [List.mem_singleton.1 hu]
        exact ⟨up, by simp, hou, .refl⟩
      · exact absurd hup h1
    · exact ⟨up, by simp, hou, .single (timely_uses_up hw h hT hup hu)⟩
  obtain ⟨e, he, heu⟩ := List.mem_map.1 hul
  have hflag := (hO.updates l4 hlog' e he (by rw [heu]; exact hu)).1
  have hue : (u, true) ∈ res.log := by rw [← heu, ← hflag]; exact he
  have hcalls : updateCalls g' o v1 svs res.log = [u] := by
    unfold updateCalls
    obtain ⟨pre, post, hpp⟩ := List.append_of_mem hue
    have hno : ∀ d ∈ pre ++ post, ¬ (d.2 = true ∧ ∃ gr, IsUpdate g' o v1 svs d.1 gr) := by
      rintro d hd ⟨_, gr, hd2⟩
      have hdl : d ∈ res.log := by rw [hpp]; rcases List.mem_append.1 hd with h1 | h1 <;> simp [h1]
      have : d.1 = u := honly d.1 v1 ((l2 d.1).1 (List.mem_map.2 ⟨d, hdl, rfl⟩)) (by simp) ((isUpdate_mayWrite hd2).2 (by simp))
      rw [hpp] at l1
      simp only [List.map_append, List.map_cons] at l1
      rw [List.nodup_append] at l1
      rcases List.mem_append.1 hd with h1 | h1
      · exact l1.2.2 d.1 (List.mem_map.2 ⟨d, h1, rfl⟩) u (by simp) this
      · exact (List.nodup_cons.1 l1.2.1).1 (this ▸ List.mem_map.2 ⟨d, h1, rfl⟩)
    rw [hpp, List.filter_append, List.filter_cons, List.filter_eq_nil_iff.2 (fun d hd => by simpa using hno d (by simp [hd])),
      List.filter_eq_nil_iff.2 (fun d hd => by simpa using hno d (by simp [hd]))]
    rw [if_pos (by simpa using ⟨_, hiu⟩)]
    rfl
  show GradsRead S g' feeds env w o v1 svs res.log [G pg]
  unfold GradsRead
  rw [hcalls]
  refine .cons ⟨_, hiu, ?_⟩ .nil
  obtain ⟨pre, post, hpp⟩ := List.append_of_mem hue
  have l4' := l4
  rw [hpp] at l4'
  obtain ⟨s1, x1, x2⟩ := execList_append l4'
  have hlu : l = pre.map Prod.fst ++ u :: post.map Prod.fst := by rw [hlog, hpp]; simp
  have hready : ∀ b, Uses g' u b → ∃ r, s1.results b = some r := fun b => hO.ready x1 hlu
  choose! cv hcv using hready
  obtain ⟨ys, hys⟩ := hT.means pg hp
  have hog := isOp_grows h.grows (timely_grad hw h hT hp)
  have hup : Uses g' u pg.2 := by
    obtain ⟨n, p, ss, hn, _, hin, _⟩ := hiu
    exact ⟨⟨n, hn, { id := pg.2 }, by rw [hin]; simp, rfl⟩, hog⟩
  have hval : cv pg.2 = .ok (G pg :: ys) := means_unique (hO.snapshot x1 hlu (hO.uses u hu _ hup) (hcv _ hup)) (hext.means hw.closed hys)
  exact ⟨pre, post, s1, cv, .nonVariable, hpp, x1, hcv, .result hog hval rfl⟩

end

end Verif.Eval
