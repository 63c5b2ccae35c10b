import Verif.Lemmas.ClassifierGradient
import Verif.Lemmas.HelperGrad
import Verif.Lemmas.TimelyStep
import Verif.Lemmas.TrainLoop
import Verif.Model.TrainStep

/-! A training step with `grad_helper` and `get_update_op`. -/

namespace Verif.Prog
open Verif Verif.Spec Verif.Gradient Verif.Graph Verif.Eval Verif.Nd Verif.Hint Verif.Opt Verif.OptState Verif.Props

theorem updateOp_total {O : GradOps POp} {g : Graph POp} {us : List Nat} (hne : us ≠ []) (hu : ∀ u ∈ us, u < g.nodes.length) (hs : g.nodes.length + 2 ≤ numNodesCritical) :
    ∃ g' up, updateOp O g us = some (.ok (g', up)) := by
  match us, hne with
  | [u], _ => exact ⟨g, u, rfl⟩
  | u :: v :: us, _ =>
    have hsh : ∃ g1 s, shapeTensor O g u = .ok (g1, s) ∧ g.nodes.length ≤ g1.nodes.length ∧ g1.nodes.length ≤ g.nodes.length + 1 := by
      unfold shapeTensor
      have hlt := hu u (by simp)
      have : g.access u = .ok g.nodes[u] := by simp [access, List.getElem?_eq_getElem hlt]
      simp only [this, bind, Except.bind]
      cases (g.nodes[u]).shape with
      | some s => exact ⟨g, s, rfl, le_refl _, by omega⟩
      | none =>
        obtain ⟨g2, h3, h4⟩ := build_total (g := g) (b := { inNodes := [{ id := u }], differentiable := false }) O.shapeOp (by simpa using hlt) (by omega)
        exact ⟨g2, _, h3, by omega, by omega⟩
    obtain ⟨g1, s, h1, h2, h2'⟩ := hsh
    obtain ⟨g3, h3, h4⟩ := build_total (g := g1) (b := { inNodes := (u :: v :: us).map (fun i => ({ id := i } : Incoming)), shape := some s }) O.addN (by
      intro i hi
      obtain ⟨x, hx, rfl⟩ := List.mem_map.1 hi
      have := hu x hx
      simp only
      omega) (by omega)
    exact ⟨g3, _, by simp only [updateOp, Gradient.addN, h1, bind, Except.bind]; rw [h3]⟩

/-- The tensors that need `l`'s, as a list. -/
theorem needed_list {g : Graph POp} (ho : OldRead g) {ts : List Nat} (ht : ∀ t ∈ ts, IsOp g t) {a : Nat} : Needed g ts a ↔ a ∈ ts.flatMap (below g) := by
  rw [List.mem_flatMap]
  constructor
  · rintro ⟨t, h1, h2, h3⟩
    exact ⟨t, h1, (below_iff ho).2 h3⟩
  · rintro ⟨t, h1, h2⟩
    exact ⟨t, h1, ht t h1, (below_iff ho).1 h2⟩

/-- What is needed of the graph with the gradients `ts` of the loss with respect to the tensors `xs` of the variables `vs`. -/
structure StepReady (g : Graph POp) (loss : Nat) (vs xs ts : List Nat) : Prop where
  reach : Reachable hintOps.toOps g
  old : OldRead g
  ne : vs ≠ []
  nodup : vs.Nodup
  tensors : List.Forall₂ (VarTensor g) xs vs
  grads : ts.length = vs.length
  isOps : ∀ t ∈ loss :: ts, IsOp g t
  room : g.nodes.length + 4 * vs.length + 2 ≤ numNodesCritical
  noUpd : ∀ n ∈ g.nodes, ∀ u, n.op ≠ .upd u
  vars : ∀ n ∈ g.nodes, ∀ v, n.variableId = some v → v ∈ vs
  /-- every variable is read before it is updated; the last is updated first -/
  inTime : ∀ before p after, (vs.zip ts).reverse = before ++ p :: after → ∀ a, a ∈ (loss :: after.map Prod.snd).flatMap (below g) → ReadsVar g a p.1 →
    a ∈ ((before ++ [p]).map Prod.snd).flatMap (below g)

/-- The optimizer and the parameters `vs`: `sv` are their state variables, `a0` their first arrays. -/
structure StepSetup (u : UOp) (uns : Str) (e1 : VarEnv (Arr ℝ)) (vs : List Nat) (a0 : Nat → Arr ℝ) (sv : Nat → List Nat) : Prop where
  state : ∀ v ∈ vs, StateOf u uns e1 v (sv v)
  ready : ∀ v ∈ vs, Ready u v (a0 v) e1.arrays (sv v)
  apart : ∀ v ∈ vs, ∀ v' ∈ vs, v ≠ v' → ∀ x ∈ v :: sv v, x ∉ v' :: sv v'
  ids : ∀ v ∈ vs, ∀ s ∈ sv v, s ∉ vs

theorem step_setup {u : UOp} {uns : Str} {hist : List (VarAction (Arr ℝ))} {e0 e1 : VarEnv (Arr ℝ)} (H : VarHist hist e0) {vids : List Nat}
    (hnew : u.create uns e0 vids = .ok e1) {vs : List Nat} (hv : ∀ v ∈ vs, v ∈ vids) {a0 : Nat → Arr ℝ} (ha : ∀ v ∈ vs, e0.getById v = some (a0 v)) :
    ∃ sv, StepSetup u uns e1 vs a0 sv := by
  have : ∀ v, ∃ svs, v ∈ vs → StateOf u uns e1 v svs ∧ (∀ s ∈ svs, e0.arrays.length ≤ s) ∧ Ready u v (a0 v) e1.arrays svs := fun v => by
    by_cases h : v ∈ vs
    · obtain ⟨svs, h1⟩ := ready H hnew (hv v h) (ha v h)
      exact ⟨svs, fun _ => h1⟩
    · exact ⟨[], fun h' => absurd h' h⟩
  choose sv hsv using this
  obtain ⟨_, H1⟩ := create_hist H hnew
  have hlt : ∀ v ∈ vs, v < e0.arrays.length := fun v h => (List.getElem?_eq_some_iff.1 (ha v h)).1
  exact ⟨sv, fun v h => (hsv v h).1, fun v h => (hsv v h).2.2,
    fun v h v' h' hne => state_separate H1 (hlt v h) (hlt v' h') (hsv v h).1 (hsv v' h').1 (hsv v h).2.1 (hsv v' h').2.1 hne,
    fun v h s hs hm => by have := (hsv v h).2.1 s hs; have := hlt s hm; omega⟩

/-- The environment after some steps with the gradients `gs`. -/
structure StepState (u : UOp) (e1 : VarEnv (Arr ℝ)) (vs : List Nat) (sv : Nat → List Nat) (e : VarEnv (Arr ℝ)) (gs : Nat → List (Arr ℝ)) : Prop where
  names : e.names = e1.names
  trained : ∀ v ∈ vs, Training hintOps.toOps stepSem (.upd u) v (sv v) e1.arrays (gs v) e.arrays

theorem evals_means {g : Graph POp} {feeds : List (Feed (Arr ℝ))} {env : List (Arr ℝ)} {t : Nat} {v : Arr ℝ} (ho : IsOp g t) (h : Evals (setting feeds env) g t v) :
    ∃ ys, Means POp.sem Arr.shape g feeds env t (.ok (v :: ys)) := by
  obtain ⟨n, h1, h2, h3⟩ := ho
  obtain ⟨h, _⟩ := h
  cases h with
  | placeholder a _ c =>
    obtain ⟨_, _, c, _⟩ := c
    rw [h1] at a; cases a; rw [h2] at c; cases c
  | variable_ a b _ => rw [h1] at a; cases a; rw [h3] at b; cases b
  | @result ys _ a b =>
    match ys, b with
    | y :: ys, b => cases b; exact ⟨ys, a⟩

section
variable {g : Graph POp} {loss : Nat} {vs xs ts : List Nat} {u : UOp} {uns : Str} {e1 e : VarEnv (Arr ℝ)} {a0 : Nat → Arr ℝ} {sv : Nat → List Nat} {gs : Nat → List (Arr ℝ)}

/-- A pair of a variable tensor and a gradient, with its variable. -/
theorem StepReady.pair (hR : StepReady g loss vs xs ts) {pg : Nat × Nat} (hpg : pg ∈ xs.zip ts) : ∃ v ∈ vs, VarTensor g pg.1 v ∧ (v, pg.2) ∈ vs.zip ts := by
  obtain ⟨k, hk, rfl⟩ := List.mem_iff_getElem.1 hpg
  have hl := hR.tensors.length_eq
  have hg := hR.grads
  simp only [List.length_zip] at hk
  have := (List.forall₂_iff_get.1 hR.tensors).2 k (by omega) (by omega)
  refine ⟨vs[k]'(by omega), List.getElem_mem _, by simpa using this, ?_⟩
  rw [List.mem_iff_getElem]
  exact ⟨k, by simp; omega, by simp⟩

theorem StepReady.unique (_hR : StepReady g loss vs xs ts) {x v v' : Nat} (h : VarTensor g x v) (h' : VarTensor g x v') : v = v' := varTensor_unique h h'

theorem StepReady.timely (hR : StepReady g loss vs xs ts) (hS : StepSetup u uns e1 vs a0 sv) (he : StepState u e1 vs sv e gs) {feeds : List (Feed (Arr ℝ))} {L : Arr ℝ}
    {G : Nat → Arr ℝ} (hL : Evals (setting feeds e.arrays) g loss L) (hG : ∀ p ∈ vs.zip ts, Evals (setting feeds e.arrays) g p.2 (G p.1))
    (hGs : ∀ v ∈ vs, (G v).shape = (a0 v).shape) {F : Nat × Nat → Arr ℝ} (hF : ∀ pg ∈ xs.zip ts, ∀ v, VarTensor g pg.1 v → F pg = G v) :
    TimelyOk POp.sem stepSem (.upd u) (StateOf u uns e1) g (xs.zip ts) loss feeds e.arrays F (ofFn [] (fun _ => 0)) L := by
  have hlen := hR.tensors.length_eq
  have hops : ∀ pg ∈ xs.zip ts, IsOp g pg.2 := fun pg h => hR.isOps _ (List.mem_cons_of_mem _ (List.of_mem_zip h).2)
  refine ⟨?_, ?_, fun v svs svs' => stateOf_unique, ?_, evals_means (hR.isOps loss (by simp)) hL, ?_, ?_, ?_, ?_⟩
  · have hmap : (xs.zip ts).map Prod.fst = xs := List.map_fst_zip (by rw [hlen, hR.grads])
    rw [hmap, List.nodup_iff_injective_get]
    intro i j hij
    have h1 := (List.forall₂_iff_get.1 hR.tensors).2 i i.2 (by have := i.2; omega)
    have h2 := (List.forall₂_iff_get.1 hR.tensors).2 j j.2 (by have := j.2; omega)
    have hij' : xs.get ⟨i, i.2⟩ = xs.get ⟨j, j.2⟩ := hij
    rw [hij'] at h1
    have := varTensor_unique h1 h2
    have := (List.nodup_iff_injective_get.1 hR.nodup) this
    exact Fin.ext (by simpa using congrArg Fin.val this)
  · intro pg hpg pg' hpg' v svs v' svs' hv hv' hs hs' hne
    obtain ⟨w, hw, h1, _⟩ := hR.pair hpg
    obtain ⟨w', hw', h1', _⟩ := hR.pair hpg'
    cases varTensor_unique hv h1
    cases varTensor_unique hv' h1'
    rw [stateOf_unique hs (hS.state v hw), stateOf_unique hs' (hS.state v' hw')]
    exact hS.apart v hw v' hw' hne
  · intro pg hpg
    obtain ⟨w, hw, h1, h2⟩ := hR.pair hpg
    rw [hF pg hpg w h1]
    exact evals_means (hops pg hpg) (hG _ h2)
  · intro a n _ hn
    exact stepSem_other (hR.noUpd n (List.mem_of_getElem? hn))
  · rintro a vid _ ⟨n, hn, i, hi, ha, _⟩
    rw [(hR.old a n hn i hi).2] at ha
    cases ha
  · intro before pg after hsplit v svs hv hs x hx a ha hr
    have hpgm : pg ∈ xs.zip ts := List.mem_reverse.1 (by rw [hsplit]; simp)
    obtain ⟨w, hw, h1, _⟩ := hR.pair hpgm
    cases varTensor_unique hv h1
    have hxv : x = v := by
      rcases List.mem_cons.1 hx with h | h
      · exact h
      · rw [stateOf_unique hs (hS.state v hw)] at h
        obtain ⟨n, _, i, _, m, hm1, hm2⟩ := hr
        exact absurd (hR.vars m (List.mem_of_getElem? hm1) x hm2) (hS.ids v hw x h)
    subst hxv
    have hin : ∀ p ∈ (xs.zip ts).reverse, IsOp g p.2 := fun p hp => hops p (List.mem_reverse.1 hp)
    rw [hsplit] at hin
    -- the same for pairs with the variables
    have hzip : ∃ before' p' after', (vs.zip ts).reverse = before' ++ p' :: after' ∧ before'.map Prod.snd = before.map Prod.snd ∧ p' = (x, pg.2) ∧ after'.map Prod.snd = after.map Prod.snd := by
      have hF2 : List.Forall₂ (fun (p q : Nat × Nat) => VarTensor g p.1 q.1 ∧ p.2 = q.2) (xs.zip ts).reverse (vs.zip ts).reverse := by
        rw [List.forall₂_reverse_iff, List.forall₂_iff_get]
        refine ⟨by simp [hlen], fun i hi hj => ?_⟩
        simp only [List.length_zip] at hi hj
        have := (List.forall₂_iff_get.1 hR.tensors).2 i (by omega) (by omega)
        exact ⟨by simpa using this, by simp⟩
      rw [hsplit] at hF2
      obtain ⟨l1, p', l2, e1, k1, k2, k3⟩ := forall₂_split (List.Forall₂.flip hF2)
      have hmap : ∀ {l l' : List (Nat × Nat)}, List.Forall₂ (fun a b => VarTensor g b.1 a.1 ∧ b.2 = a.2) l l' → l.map Prod.snd = l'.map Prod.snd := by
        intro l l' h
        induction h with
        | nil => rfl
        | cons h _ ih => simp [ih, h.2]
      exact ⟨l1, p', l2, e1, hmap k1, Prod.ext (varTensor_unique k2.1 hv) k2.2.symm, hmap k3⟩
    obtain ⟨b', p', a', z1, z2, rfl, z3⟩ := hzip
    have hset := hR.inTime b' _ a' z1 a (by
      rw [z3, ← needed_list hR.old]
      · exact ha
      · intro t ht
        rcases List.mem_cons.1 ht with rfl | ht
        · exact hR.isOps _ (by simp)
        · obtain ⟨p, hp, rfl⟩ := List.mem_map.1 ht
          exact hin p (by simp [hp])) hr
    rw [needed_list hR.old]
    · simpa [z2] using hset
    · intro t ht
      obtain ⟨p, hp, rfl⟩ := List.mem_map.1 ht
      refine hin p ?_
      rcases List.mem_append.1 hp with h | h
      · simp [h]
      · rw [List.mem_singleton.1 h]; simp
  · intro pg hpg v svs hv hs
    obtain ⟨w, hw, h1, _⟩ := hR.pair hpg
    cases varTensor_unique hv h1
    rw [stateOf_unique hs (hS.state v hw)]
    obtain ⟨p, ss, h1, h2, h3, _⟩ := (hS.ready v hw).after _ _ (he.trained v hw)
    obtain ⟨ws, h4⟩ := h3 (G v) (hGs v hw)
    exact ⟨p, ss, h1, fun w => ⟨w, ws, by rw [stepSem_upd, hF pg hpg v hv, h4]; rfl⟩⟩

theorem stepSem_addN (k : Nat) (w : Unit) (hk : 0 < k) : ∃ r : Arr ℝ, True ∧ stepSem.compute gradOps.addN w (List.replicate k ⟨.nonVariable, ofFn [] (fun _ => (0 : ℝ))⟩) = .done w [] [r] (.ok ()) := by
  obtain ⟨y, h1, _⟩ := addN_value (List.replicate k (ofFn [] (fun _ => (0 : ℝ)))) [] (by simp; omega) (by simp [ofFn])
  refine ⟨y, trivial, ?_⟩
  have h2 : POp.addN.run (List.replicate k (ofFn [] (fun _ => (0 : ℝ)))) = .ok y := h1
  show progSem.compute POp.addN w _ = _
  simp only [progSem, List.map_replicate, h2]
  rfl

/-- A step of training succeeds and extends the history of every parameter by its gradient. -/
theorem train_step {l : List Stmt} {loss : Nat} {g0 g : Graph POp} {ids vs xs ts : List Nat} {u : UOp} {ns uns : Str} {order : List (FullName × Nat)} {e1 : VarEnv (Arr ℝ)} {a0 : Nat → Arr ℝ}
    {sv : Nat → List Nat} (hl : buildCalls l = .ok (g0, ids)) (hR : StepReady g (ids.getD loss 0) vs xs ts) (hS : StepSetup u uns e1 vs a0 sv) :
    ∃ N, ∀ fuel, N ≤ fuel → ∀ pick, gradHelper gradOps .var pick fuel g0 [ids.getD loss 0] ns order = some (.ok (g, xs.zip ts)) →
      ∀ e gs, StepState u e1 vs sv e gs → ∀ feeds L (G : Nat → Arr ℝ), Evals (setting feeds e.arrays) g (ids.getD loss 0) L →
        (∀ p ∈ vs.zip ts, Evals (setting feeds e.arrays) g p.2 (G p.1)) → (∀ v ∈ vs, (G v).shape = (a0 v).shape) →
        ∃ e', trainStep l loss ns order u uns pick fuel e feeds = some (.ok (L, e')) ∧ StepState u e1 vs sv e' (fun v => gs v ++ [G v]) := by
  have hlen := hR.tensors.length_eq
  have hg := hR.grads
  have hops : ∀ pg ∈ xs.zip ts, IsOp g pg.2 := fun pg h => hR.isOps _ (List.mem_cons_of_mem _ (List.of_mem_zip h).2)
  obtain ⟨g1, us, hup, hb, hsz⟩ := updates_sized u uns e1 hR.reach.wf (pgs := xs.zip ts) (fun pg hpg => by
    obtain ⟨v, hv, h1, _⟩ := hR.pair hpg
    exact ⟨⟨v, sv v, h1, hS.state v hv⟩, isOp_lt (hops pg hpg)⟩) (by
    have := hR.room
    simp only [List.length_zip]
    omega)
  have hne : us ≠ [] := by
    rintro rfl
    have h1 := hb.built.length_eq
    have h2 := List.length_pos_iff.2 hR.ne
    simp only [List.length_zip, List.length_nil] at h1
    omega
  obtain ⟨g2, up, hop⟩ := updateOp_total (O := gradOps) hne (fun x hx => (hb.new x hx).2) (by
    have := hR.room
    simp only [List.length_zip] at hsz
    omega)
  have hSG := stepGraph_of hR.reach.wf hR.old.acyclic (fun pg h => isOp_lt (hops pg h)) hb hop
  refine ⟨2 * (2 + edgeCount g2), fun fuel hf pick hh e gs he feeds L G hL hG hGs => ?_⟩
  have : ∀ pg, ∃ a, pg ∈ xs.zip ts → ∀ v, VarTensor g pg.1 v → a = G v := fun pg => by
    by_cases h : pg ∈ xs.zip ts
    · obtain ⟨v, _, h1, _⟩ := hR.pair h
      exact ⟨G v, fun _ v' h' => by rw [varTensor_unique h1 h']⟩
    · exact ⟨G 0, fun h' => absurd h' h⟩
  choose F hF using this
  have hT := hR.timely hS he hL hG hGs hF
  obtain ⟨res, r, h1, h2, _, h3⟩ := timely_step hR.reach.wf hSG hT hR.reach (P := fun _ => True) trivial (fun k w hk => stepSem_addN k w hk) hf ()
  refine ⟨{ e with arrays := res.env }, ?_, he.names, fun v hv => ?_⟩
  · rw [← updates_names u uns he.names] at hup
    simp only [trainStep, hl, hh, hup, hop, h1, h2]
  · obtain ⟨k, hk, rfl⟩ := List.mem_iff_getElem.1 hv
    have hv1 : VarTensor g (xs[k]'(by omega)) vs[k] := by
      have := (List.forall₂_iff_get.1 hR.tensors).2 k (by omega) hk
      simpa using this
    have hmem : (xs[k]'(by omega), ts[k]'(by omega)) ∈ xs.zip ts := List.mem_iff_getElem.2 ⟨k, by simp; omega, by simp⟩
    have := h3 _ hmem _ _ hv1 (hS.state _ hv) _ _ (he.trained _ hv)
    rwa [hF _ hmem _ hv1] at this

end

end Verif.Prog
