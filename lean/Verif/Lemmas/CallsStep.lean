import Verif.Lemmas.CallsDeriv
import Verif.Lemmas.CallsGrad
import Verif.Lemmas.GradPerm
import Verif.Lemmas.Skeleton
import Verif.Lemmas.TrainStep

/-! Training steps of programs whose gradient graph passes a check. -/

namespace Verif.Prog
open Verif Verif.Spec Verif.Gradient Verif.Graph Verif.Eval Verif.Nd Verif.Hint Verif.Opt Verif.OptState Verif.Props

def nodeCheckIn (vs : List Nat) (n : Node POp) : Bool :=
  (match n.op with | .upd _ => false | _ => true) && (match n.variableId with | none => true | some v => vs.contains v)

/-- A program whose steps can be made: the listed variables `vs` are those of the calls `ks`. -/
def Stepable (l : List Stmt) (loss fuel : Nat) (vs ks : List Nat) (g : Graph POp) (ids : List Nat) : Prop :=
  ∃ r : GradResult POp, StepReady r.g (ids.getD loss 0) vs (ks.map fun k => ids.getD k 0) r.grads ∧ ∀ pick, PicksMax pick → ∀ fuel', fuel ≤ fuel' →
    grad gradOps pick fuel' g [ids.getD loss 0] (ks.map fun k => ids.getD k 0) = some (.ok r) ∧
    ∀ ns order, idsOf ns order = vs → gradHelper gradOps .var pick fuel' g [ids.getD loss 0] ns order = some (.ok (r.g, (ks.map fun k => ids.getD k 0).zip r.grads))

/-- The check of a program with the variables `vs`, the variable `v` of call number `K v`; `X` are the tensors. Returns the links of the graph with the gradients. -/
noncomputable def stepCheck (fuel : Nat) (vs : List Nat) (K T : Nat → Nat) (loss : Nat) (g : Graph POp) (ids : List Nat) : Bool × Skel :=
  match gradState gradOps demoPick fuel g [ids.getD loss 0] (vs.map fun v => ids.getD (K v) 0) with
  | some (.ok s) => (vs.all (fun v => g.var2node v == some (ids.getD (K v) 0) && singleB s.m (ids.getD (K v) 0) (T v)) &&
      (gradThin gradOps demoPick fuel g [ids.getD loss 0] (vs.map fun v => ids.getD (K v) 0) && s.g.nodes.all (nodeCheckIn vs)), skel s.g)
  | _ => (false, [])

theorem step_ready {l : List Stmt} {loss fuel : Nat} {vs0 vs ids : List Nat} {K T : Nat → Nat} {g : Graph POp} {sk : Skel} (hs : Scoped l) (hb : buildCalls l = .ok (g, ids))
    (hc : stepCheck fuel vs0 K T loss g ids = (true, sk)) {S : Nat → List Nat} (hlate : lateS sk (ids.getD loss 0) T S vs0 = true) (hops : (ids.getD loss 0 :: vs0.map T).all (isOpS sk) = true)
    (hroom : sk.length + 4 * vs0.length ≤ 1000) (hp : vs.Perm vs0) (hne : vs0 ≠ []) (hnd : vs0.Nodup) (hS : ∀ v ∈ vs0, S v ≠ [] → ∃ w ∈ S v, ListedAfter vs v w) :
    Stepable l loss fuel vs (vs.map K) g ids := by
  have hB := built hb hs
  have hreach := prog_reach hB.run
  have hmem : ∀ v, v ∈ vs ↔ v ∈ vs0 := fun v => hp.mem_iff
  have hperm : ∀ x, x ∈ vs.map (fun v => ids.getD (K v) 0) ↔ x ∈ vs0.map (fun v => ids.getD (K v) 0) := fun x => (hp.map _).mem_iff
  have hmm : (vs.map K).map (fun k => ids.getD k 0) = vs.map (fun v => ids.getD (K v) 0) := by rw [List.map_map]; rfl
  unfold stepCheck at hc
  generalize hgs : gradState gradOps demoPick fuel g [ids.getD loss 0] (vs0.map fun v => ids.getD (K v) 0) = o at hc
  match o, hc with
  | some (.ok s), hc =>
    simp only [Prod.mk.injEq, Bool.and_eq_true, List.all_eq_true, beq_iff_eq] at hc
    obtain ⟨⟨h1, h2, h4⟩, rfl⟩ := hc
    -- the gradient of the tensor of a variable
    have hinj : ∀ v ∈ vs0, ∀ w ∈ vs0, ids.getD (K v) 0 = ids.getD (K w) 0 → v = w := fun v hv w hw he => by
      obtain ⟨n, k1, k2⟩ := (hreach.wf.cache _ _).1 (h1 v hv).1
      obtain ⟨n', k1', k2'⟩ := (hreach.wf.cache _ _).1 (h1 w hw).1
      rw [he, k1'] at k1
      cases k1
      rw [k2'] at k2
      cases k2
      rfl
    have hT : ∃ T' : Nat → Nat, ∀ v ∈ vs0, T' (ids.getD (K v) 0) = T v := by
      have : ∀ x, ∃ t, ∀ v ∈ vs0, ids.getD (K v) 0 = x → T v = t := fun x => by
        by_cases h : ∃ v ∈ vs0, ids.getD (K v) 0 = x
        · obtain ⟨v, hv, hx⟩ := h
          exact ⟨T v, fun w hw hx' => by rw [hinj w hw v hv (hx'.trans hx.symm)]⟩
        · exact ⟨0, fun v hv hx => absurd ⟨v, hv, hx⟩ h⟩
      choose T' hT' using this
      exact ⟨T', fun v hv => (hT' _ v hv rfl).symm⟩
    obtain ⟨T', hT'⟩ := hT
    have hstate : ∀ pick, PicksMax pick → ∀ fuel', fuel ≤ fuel' → gradState gradOps pick fuel' g [ids.getD loss 0] (vs.map fun v => ids.getD (K v) 0) = some (.ok s) := fun pick hpick fuel' hf => by
      rw [gradState_perm hperm, gradState_thin demoPick_max hpick h2 hf, hgs]
    have hsing : ∀ x ∈ vs.map (fun v => ids.getD (K v) 0), singleB s.m x (T' x) = true := fun x hx => by
      obtain ⟨v, hv, rfl⟩ := List.mem_map.1 hx
      rw [hT' v ((hmem v).1 hv)]
      exact (h1 v ((hmem v).1 hv)).2
    have hgrad : ∀ pick, PicksMax pick → ∀ fuel', fuel ≤ fuel' → grad gradOps pick fuel' g [ids.getD loss 0] (vs.map fun v => ids.getD (K v) 0) = some (.ok ⟨s.g, vs.map T, s.log⟩) :=
      fun pick hpick fuel' hf => by
        rw [grad_of_state (by simp) (hstate pick hpick fuel' hf) hsing, List.map_map]
        congr 3
        exact List.map_congr_left fun v hv => hT' v ((hmem v).1 hv)
    have hbl : Builds g s.g := grad_builds opGrad_builds (hgrad demoPick demoPick_max fuel (le_refl _))
    have hold : OldRead s.g := hbl.oldRead (run_oldRead hB.run)
    have hndv : vs.Nodup := hp.nodup_iff.2 hnd
    refine ⟨⟨s.g, vs.map T, s.log⟩, ⟨hbl.reach hreach, hold, fun h => hne (by rw [h] at hp; exact hp.nil_eq.symm), hndv, ?_, by simp, ?_, ?_, ?_, ?_, ?_⟩, fun pick hpick fuel' hf => ⟨?_, fun ns order ho => ?_⟩⟩
    · rw [hmm, List.forall₂_map_left_iff, List.forall₂_same]
      intro v hv
      obtain ⟨n, k1, k2⟩ := (hreach.wf.cache v _).1 (h1 v ((hmem v).1 hv)).1
      exact ⟨n, hbl.grows.1 _ _ k1, k2⟩
    · intro t ht
      have h5 := List.all_eq_true.1 hops t (by
        simp only [List.mem_cons, List.mem_map] at ht ⊢
        rcases ht with h | ⟨v, hv, h⟩
        · exact .inl h
        · exact .inr ⟨v, (hmem v).1 hv, h⟩)
      rw [isOpS_skel] at h5
      exact isOpB_iff.1 h5
    · have := hp.length_eq
      rw [skel_length] at hroom
      show s.g.nodes.length + 4 * vs.length + 2 ≤ 500000
      omega
    · intro n hn u hu
      have := h4 n hn
      simp [nodeCheckIn, hu] at this
    · intro n hn v hv
      have := h4 n hn
      simp only [nodeCheckIn, hv, Bool.and_eq_true, List.contains_iff_mem] at this
      exact (hmem v).2 this.2
    · intro before p after hsplit a ha hr
      have hz : vs.zip (vs.map T) = vs.map fun v => (v, T v) := by
        clear * -
        induction vs with
        | nil => rfl
        | cons v vs ih => simp [ih]
      simp only [hz] at hsplit
      have hall : ∀ q ∈ before ++ p :: after, q.1 ∈ vs ∧ q.2 = T q.1 := fun q hq => by
        rw [← hsplit, List.mem_reverse, List.mem_map] at hq
        obtain ⟨v, hv, rfl⟩ := hq
        exact ⟨hv, rfl⟩
      obtain ⟨hpv, hpt⟩ := hall p (by simp)
      have hin : a ∈ (ids.getD loss 0 :: vs0.map T).flatMap (below s.g) := by
        rw [List.mem_flatMap] at ha ⊢
        obtain ⟨t, ht, hat⟩ := ha
        refine ⟨t, ?_, hat⟩
        rcases List.mem_cons.1 ht with rfl | ht
        · simp
        · obtain ⟨q, hq, rfl⟩ := List.mem_map.1 ht
          obtain ⟨hq1, hq2⟩ := hall q (by simp [hq])
          rw [hq2]
          exact List.mem_cons_of_mem _ (List.mem_map_of_mem ((hmem _).1 hq1))
      rw [List.mem_flatMap]
      rcases lateS_spec hlate ((hmem _).1 hpv) hin hr with h | ⟨hSne, hSa⟩
      · exact ⟨p.2, by simp, by rw [hpt]; exact h⟩
      · obtain ⟨w, hw, x, y, z, hxyz⟩ := hS p.1 ((hmem _).1 hpv) hSne
        refine ⟨T w, ?_, hSa w hw⟩
        -- `w` is listed after `p.1`, thus updated before
        have hrev : vs.reverse = z.reverse ++ w :: (y.reverse ++ p.1 :: x.reverse) := by rw [hxyz]; simp
        have hsp : vs.reverse = before.map Prod.fst ++ p.1 :: after.map Prod.fst := by
          have := congrArg (List.map Prod.fst) hsplit
          rw [← List.map_reverse, List.map_map, show (Prod.fst ∘ fun v => (v, T v)) = id from rfl, List.map_id] at this
          rw [this]
          simp
        have hndr : vs.reverse.Nodup := List.nodup_reverse.2 hndv
        have hwb : w ∈ before.map Prod.fst := by
          have e : z.reverse ++ [w] ++ y.reverse ++ p.1 :: x.reverse = before.map Prod.fst ++ p.1 :: after.map Prod.fst := by rw [← hsp, hrev]; simp
          have hn1 : p.1 ∉ z.reverse ++ [w] ++ y.reverse := by
            rw [hrev] at hndr
            have : (z.reverse ++ [w] ++ y.reverse ++ p.1 :: x.reverse).Nodup := by simpa using hndr
            exact fun h => (List.disjoint_of_nodup_append this) h (by simp)
          have hn2 : p.1 ∉ x.reverse := by
            rw [hrev] at hndr
            have : (z.reverse ++ [w] ++ y.reverse ++ p.1 :: x.reverse).Nodup := by simpa using hndr
            exact (List.nodup_cons.1 (List.nodup_append.1 this).2.1).1
          have := (List.append_cons_inj_of_notMem hn1 hn2).1 e
          rw [← this.1]
          simp
        obtain ⟨q, hq, rfl⟩ := List.mem_map.1 hwb
        rw [List.mem_map]
        exact ⟨q, by simp [hq], (hall q (by simp [hq])).2⟩
    · rw [hmm]
      exact hgrad pick hpick fuel' hf
    · rw [hmm]
      refine gradHelper_grad hreach.wf (VarsDiff.reachable hreach) ?_ (hstate pick hpick fuel' hf) (fun x hx => ?_) (hgrad pick hpick fuel' hf)
      · rw [ho, List.forall₂_map_right_iff, List.forall₂_same]
        exact fun v hv => (h1 v ((hmem v).1 hv)).1
      · obtain ⟨info, k1, k2, _⟩ := singleB_iff.1 (hsing x hx)
        exact ⟨info, k1, k2⟩

/-- A training step of such a program: the loss is returned, and the gradients are exact. -/
theorem calls_step {l : List Stmt} {loss fuel0 : Nat} {vs ks ids : List Nat} {g : Graph POp} (hs : Scoped l) (hb : buildCalls l = .ok (g, ids))
    (hx : List.Forall₂ (fun k vid => l[k]? = some (.var vid)) ks vs) (hloss : loss < l.length) (hsize : 4 * l.length + 1 + ks.length + 1 ≤ 15000) (hc : Stepable l loss fuel0 vs ks g ids) {u : UOp}
    {ns uns : Str} {order : List (FullName × Nat)} (hord : idsOf ns order = vs) {e1 : VarEnv (Arr ℝ)} {a0 : Nat → Arr ℝ} {sv : Nat → List Nat} (hS : StepSetup u uns e1 vs a0 sv) :
    ∃ N, ∀ fuel, N ≤ fuel → ∀ pick, PicksMax pick → ∀ e gs, StepState u e1 vs sv e gs → ∀ fs val, Denotes fs e.arrays l val →
      (∀ s ∈ l, StmtOk (Fixed l vs) (FlatIn l val) val s ∧ GradGivenFor (Fixed l vs) s) → (∀ v ∈ vs, ∀ a, e.arrays[v]? = some a → a.shape = (a0 v).shape) →
      ∃ (e' : VarEnv (Arr ℝ)) (G : Nat → Arr ℝ), trainStep l loss ns order u uns pick fuel e (named fs) = some (.ok (val loss, e')) ∧ StepState u e1 vs sv e' (fun v => gs v ++ [G v]) ∧
        ∀ v ∈ vs, ∃ a, e.arrays[v]? = some a ∧ (G v).shape = a.shape ∧ ∀ i, InB i a.shape → ∃ Vals : ℝ → Nat → Arr ℝ,
          (∀ u, Denotes fs (e.arrays.set v (nudge a i u)) l (Vals u)) ∧ HasDerivAt (fun u => total (Vals u loss)) ((G v).get i) 0 := by
  obtain ⟨r, hR, hr⟩ := hc
  have hnd := hR.nodup
  obtain ⟨N, hN⟩ := train_step (ns := ns) (order := order) hb hR hS
  refine ⟨max N fuel0, fun fuel hf pick hpick e gs he fs val hd hok hsh => ?_⟩
  obtain ⟨_, hh⟩ := hr pick hpick fuel (le_trans (le_max_right _ _) hf)
  obtain ⟨N', hN'⟩ := calls_derivs l hs g ids hb fs e.arrays val hd ks vs hx hnd hok [loss] (by simp) (by simpa using hloss) pick hpick
  obtain ⟨hr', _⟩ := hr pick hpick (max N' fuel0) (le_max_right _ _)
  rcases hN' _ (le_max_left _ fuel0) with ⟨_, h⟩ | ⟨r', h1, hbl, _, _, _, h2⟩
  · simp only [List.length_singleton] at h; omega
  rw [List.map_cons, List.map_nil, hr'] at h1
  cases h1
  have hlen : vs.length = r.grads.length := hR.grads.symm
  have : ∀ v, ∃ G : Arr ℝ, v ∈ vs → ∀ t, (v, t) ∈ vs.zip r.grads → ∃ a, e.arrays[v]? = some a ∧ G.shape = a.shape ∧ Evals (setting (named fs) e.arrays) r.g t G ∧ ∀ i, InB i a.shape →
      ∃ Vals : ℝ → Nat → Arr ℝ, (∀ u, Denotes fs (e.arrays.set v (nudge a i u)) l (Vals u)) ∧ HasDerivAt (fun u => total (Vals u loss)) (G.get i) 0 := fun v => by
    by_cases hv : v ∈ vs
    · obtain ⟨k, hk, rfl⟩ := List.mem_iff_getElem.1 hv
      obtain ⟨a, G, g1, g2, g3, g4⟩ := (List.forall₂_iff_get.1 h2).2 k hk (by omega)
      refine ⟨G, fun _ t ht => ⟨a, g1, g2, ?_, fun i hi => ?_⟩⟩
      · obtain ⟨k', hk', hkk⟩ := List.mem_iff_getElem.1 ht
        simp only [List.getElem_zip, Prod.mk.injEq] at hkk
        simp only [List.length_zip] at hk'
        have : k' = k := (List.Nodup.getElem_inj_iff hnd).1 hkk.1
        subst this
        rw [← hkk.2]
        exact g3
      · obtain ⟨Vals, v1, v2⟩ := g4 i hi
        refine ⟨Vals, fun u => (v1 u).1, ?_⟩
        simpa using v2
    · exact ⟨ofFn [] (fun _ => 0), fun h => absurd h hv⟩
  choose G hG using this
  have hzip : ∀ v ∈ vs, ∃ t, (v, t) ∈ vs.zip r.grads := fun v hv => by
    obtain ⟨k, hk, rfl⟩ := List.mem_iff_getElem.1 hv
    exact ⟨r.grads[k]'(by omega), List.mem_iff_getElem.2 ⟨k, by simp; omega, by simp⟩⟩
  obtain ⟨_, hv⟩ := buildCalls_values hb hs (fun c hc => stmtOk_weaken (fun _ _ => trivial) (fun _ _ _ => trivial) (hok c hc).1) hd
  have hL := Evals.mono hbl.grows (prog_reach (built hb hs).run).wf.closed (hv _ hloss)
  obtain ⟨e', t1, t2⟩ := hN fuel (le_trans (le_max_left _ _) hf) pick (hh ns order hord) e gs he (named fs) (val loss) G hL (fun p hp => by
    obtain ⟨_, _, _, h, _⟩ := hG p.1 (List.of_mem_zip hp).1 p.2 hp
    exact h) (fun v hv => by
    obtain ⟨t, ht⟩ := hzip v hv
    obtain ⟨a, k1, k2, _⟩ := hG v hv t ht
    rw [k2, hsh v hv a k1])
  refine ⟨e', G, t1, t2, fun v hv => ?_⟩
  obtain ⟨t, ht⟩ := hzip v hv
  obtain ⟨a, k1, k2, _, k3⟩ := hG v hv t ht
  exact ⟨a, k1, k2, k3⟩

end Verif.Prog
