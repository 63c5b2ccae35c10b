import Verif.Lemmas.ProgramBuilds
import Verif.Props.Gradient

/-! The values of the tensors of a graph move differentiably with its variables and placeholders, and `grad` computes the derivative. -/

namespace Verif.Prog
open Verif Verif.Spec Verif.Gradient Verif.Graph Verif.Eval Verif.Nd Verif.Hint

theorem stopsStill {l : List Stmt} {g : Graph POp} {X ts : List Nat} {p : Nat → Arr ℝ} (hl : runProgram l = .ok (g, ts))
    (hok : ∀ s ∈ l, StmtOk (Still g X) (Flat g p) p s) : StopsStill g X := by
  intro k n hn hs
  have hp : PInv hintOps (l.map Stmt.ctor) g := PInv.constructAll pinv_empty (fun _ h => h) hl
  cases hp.made k n hn with
  | var a _ _ _ => rw [hs] at a; cases a
  | placeholder a _ _ _ => rw [hs] at a; cases a
  | const a _ _ => rw [hs] at a; cases a
  | shape a _ _ _ => rw [hs] at a; cases a
  | infer a _ _ _ _ => rw [hs] at a; cases a
  | @ctor c op ins hmem hc ho hin hord hdf =>
    obtain ⟨st, hst, rfl⟩ := List.mem_map.1 hmem
    rw [ho] at hs
    subst hs
    have h1 := hok st hst
    cases st <;> simp only [Stmt.ctor, ctorNode, reduceCtorEq, Option.some.injEq, Prod.mk.injEq, false_and] at hc
    case un e x => cases e <;> simp [unCtor] at hc
    case stopGradient x =>
      rw [hin, ← hc.2]
      simpa [StmtOk] using h1

theorem progGraph {F : List (Feed (Arr ℝ))} {N : List (Arr ℝ)} {l : List Stmt} {g : Graph POp} {X ts : List Nat} {p : Nat → Arr ℝ} (hl : runProgram l = .ok (g, ts))
    (hv : ∀ n, n < g.nodes.length → Evals (setting F N) g n (p n)) (hok : ∀ s ∈ l, StmtOk (Still g X) (Flat g p) p s) : ProgGraph g X F N p :=
  progGraph_held hl hv fun s hs => .inl (hok s hs)

section
variable {g : Graph POp} {xs : List Nat} {feeds : List (Feed (Arr ℝ))} {env : List (Arr ℝ)} {p : Nat → Arr ℝ}

/-- All tensors move along with the `xs`. -/
theorem graph_moves_sums (hP : ProgGraph g xs feeds env p) (hleaf : ∀ x ∈ xs, IsLeaf g x) {g0 : Graph POp} {ys sys : List Nat}
    (hs : Summed gradOps.sumAll g ys g0 sys) (hy : ∀ y ∈ ys, y < g.nodes.length)
    (F : ℝ → List (Feed (Arr ℝ))) (N : ℝ → List (Arr ℝ)) (V : Nat → ℝ → Arr ℝ) (d : Nat → List Nat → ℝ) {h : Graph POp} (hh : HeldIn g h xs p F N)
    (hV : ∀ x ∈ xs, Moves (V x) (p x) (d x) ∧ ∀ u, Evals (setting (F u) (N u)) h x (V x u))
    (hfix : ∀ x, IsLeaf g x → x ∉ xs → ∀ u, Evals (setting (F u) (N u)) h x (p x)) :
    ∃ (t0 : Nat → List Nat → ℝ) (Y : Nat → ℝ → Arr ℝ), MovedBy (arrCalc (setting feeds env) g0 (Still g xs) (withSums g p g0)) g xs.toFinset t0 ∧
      (∀ x ∈ xs.toFinset, t0 x = d x) ∧ (∀ n, Still g xs n → t0 n = 0) ∧
      ∀ n, n < g.nodes.length → (∀ u, Evals (setting (F u) (N u)) h n (Y n u)) ∧ Moves (Y n) (p n) (t0 n) ∧ (Still g xs n → ∀ u, Y n u = p n) := by
  have hG := summed_good hP hs hy
  have hlow : ∀ n, n < g.nodes.length → withSums g p g0 n = p n := fun n hn => if_pos hn
  obtain ⟨t0, ht0, htd⟩ := exists_moved (K := arrCalc (setting feeds env) g0 (Still g xs) (withSums g p g0)) hP.bpDag
    (fun n node t t' hn h => good_local hG n node t t' (hs.grows.1 _ _ hn) h) xs.toFinset d
  have hmem : ∀ x, x ∈ xs.toFinset ↔ x ∈ xs := fun x => List.mem_toFinset
  have hst : ∀ n, Still g xs n → t0 n = 0 := by
    intro n hn
    have hnX : n ∉ xs.toFinset := fun h => not_still (hleaf n ((hmem n).1 h)) ((hmem n).1 h) hn
    by_cases hc : IsDiff g n ∧ ¬ IsSource g n
    · rw [ht0.op n hnX hc.1 hc.2]
      have key : ∀ op l, IsApp g n op l → jvp (withSums g p g0) (mask (Still g xs) t0) op l = 0 →
          (arrCalc (setting feeds env) g0 (Still g xs) (withSums g p g0)).lin n t0 = 0 := by
        intro op l ha h
        obtain ⟨nd, a, b, c, _⟩ := isApp_mono hs.grows ha
        refine (lin_eq a t0).trans ?_
        rw [b, c]
        refine Eq.trans ?_ h
        congr 1
        exact ids_map l
      cases hn with
      | leaf h _ =>
        obtain ⟨nd, hnd, h⟩ := h
        exact absurd ⟨nd, hnd, (hP.leaf n nd hnd h).2⟩ hc.2
      | shape h => exact key _ _ h rfl
      | size h => exact key _ _ h rfl
      | stop h => exact key _ _ h rfl
      | app h hz => exact key _ _ h (jvp_zero _ _ _ fun x hx => mask_pos (hz x hx) t0)
    · refine ht0.fixed n hnX ?_
      by_cases h1 : IsDiff g n
      · right
        by_contra h2
        exact hc ⟨h1, h2⟩
      · exact .inl h1
  have hmask : ∀ x, mask (Still g xs) t0 x = t0 x := by
    intro x
    by_cases hz : Still g xs x
    · exact (mask_pos hz t0).trans (hst x hz).symm
    · exact mask_neg hz t0
  have hvm := values_move hP (F := F) (N := N) (t := t0) hh
    (by
      intro n hn
      by_cases hnx : n ∈ xs
      · refine ⟨V n, (hV n hnx).2, ?_, fun h => absurd hnx h⟩
        rw [htd n ((hmem n).2 hnx)]
        exact (hV n hnx).1
      · refine ⟨fun _ => p n, hfix n hn hnx, ?_, fun _ _ => rfl⟩
        obtain ⟨nd, hnd, hl⟩ := hn
        rw [ht0.fixed n (fun h => hnx ((hmem n).1 h)) (.inr ⟨nd, hnd, (hP.leaf n nd hnd hl).2⟩)]
        exact moves_const (p n))
    (by
      intro n nd hnd hnl i
      have hnX : n ∉ xs.toFinset := fun h => hnl (hleaf n ((hmem n).1 h))
      have hin : ∀ x ∈ nd.incoming.map Incoming.id, x < g.nodes.length := by
        intro x hx
        obtain ⟨j, hj, rfl⟩ := List.mem_map.1 hx
        exact hP.closed n nd hnd j hj
      have hlin : (arrCalc (setting feeds env) g0 (Still g xs) (withSums g p g0)).lin n t0 = jvp p t0 nd.op (nd.incoming.map Incoming.id) := by
        refine (lin_eq (hs.grows.1 _ _ hnd) t0).trans ?_
        refine (jvp_congr_values (p' := p) _ _ _ fun x hx => hlow x (hin x hx)).trans ?_
        exact jvp_congr _ _ _ _ fun x _ => hmask x
      by_cases hc : IsDiff g n ∧ ¬ IsSource g n
      · rw [ht0.op n hnX hc.1 hc.2, hlin]
      · have hz : jvp p t0 nd.op (nd.incoming.map Incoming.id) = 0 := by
          cases hP.node n nd hnd with
          | leaf _ _ h => exact absurd ⟨nd, hnd, h⟩ hnl
          | @app l ha _ _ _ hd =>
            obtain ⟨nd', a, _, b, _⟩ := ha
            rw [hnd] at a; cases a
            rw [b, ids_map]
            by_cases hdf : nd.differentiable = true
            · have : IsSource g n := by
                by_contra hns
                exact hc ⟨⟨nd, hnd, hdf⟩, hns⟩
              obtain ⟨nd', a, c⟩ := this
              rw [hnd] at a; cases a
              rw [c] at b
              have : l = [] := by simpa using b.symm
              exact jvp_zero _ _ _ (by simp [this])
            · exact hd (by simpa using hdf) t0
        rw [hz, ht0.fixed n hnX (by
          by_cases h1 : IsDiff g n
          · right
            by_contra h2
            exact hc ⟨h1, h2⟩
          · exact .inl h1)]
        rfl) hst
  have : ∀ n, ∃ Y : ℝ → Arr ℝ, n < g.nodes.length → (∀ u, Evals (setting (F u) (N u)) h n (Y u)) ∧ Moves Y (p n) (t0 n) ∧ (Still g xs n → ∀ u, Y u = p n) := by
    intro n
    by_cases hn : n < g.nodes.length
    · obtain ⟨Y, h⟩ := hvm n hn
      exact ⟨Y, fun _ => h⟩
    · exact ⟨fun _ => p n, fun h => absurd h hn⟩
  choose Y hY using this
  exact ⟨t0, Y, ht0, htd, hst, hY⟩

theorem summed_nil : Summed gradOps.sumAll g [] g [] := ⟨grows_refl _, id, .nil, fun id => ⟨fun h => absurd h (by simp), fun h => absurd h (by omega)⟩, .nil⟩

/-- All tensors move along with the `xs`. -/
theorem graph_moves (hP : ProgGraph g xs feeds env p) (hns : StopsStill g xs) (hleaf : ∀ x ∈ xs, IsLeaf g x)
    (F : ℝ → List (Feed (Arr ℝ))) (N : ℝ → List (Arr ℝ)) (V : Nat → ℝ → Arr ℝ) (d : Nat → List Nat → ℝ)
    (hV : ∀ x ∈ xs, Moves (V x) (p x) (d x) ∧ ∀ u, Evals (setting (F u) (N u)) g x (V x u))
    (hfix : ∀ x, IsLeaf g x → x ∉ xs → ∀ u, Evals (setting (F u) (N u)) g x (p x)) :
    ∃ (t0 : Nat → List Nat → ℝ) (Y : Nat → ℝ → Arr ℝ), ∀ n, n < g.nodes.length → (∀ u, Evals (setting (F u) (N u)) g n (Y n u)) ∧ Moves (Y n) (p n) (t0 n) := by
  obtain ⟨t0, Y, _, _, _, h⟩ := graph_moves_sums hP hleaf summed_nil (by simp) F N V d (held_self hns) hV hfix
  exact ⟨t0, Y, fun n hn => ⟨(h n hn).1, (h n hn).2.1⟩⟩

/-- `grad` computes the derivative of the sum of the elements of the `ys`, when results of `stop_gradient` are held. -/
theorem graph_gradient_held (hP : ProgGraph g xs feeds env p)
    (pick : Graph POp → List Nat → Nat) (hpick : PicksMax pick) (fuel : Nat) (ys : List Nat)
    (hy : ∀ y ∈ ys, y < g.nodes.length) (hxs : xs.Nodup) (hleaf : ∀ x ∈ xs, IsLeaf g x) (r : GradResult POp)
    (h : grad gradOps pick fuel g ys xs = some (.ok r)) :
    ∃ G : Nat → Arr ℝ, List.Forall₂ (fun x t => Evals (setting feeds env) r.g t (G x) ∧ (G x).shape = (p x).shape) xs r.grads ∧
      ∀ (F : ℝ → List (Feed (Arr ℝ))) (N : ℝ → List (Arr ℝ)) (V : Nat → ℝ → Arr ℝ) (d : Nat → List Nat → ℝ) (h : Graph POp), HeldIn g h xs p F N →
        (∀ x ∈ xs, Moves (V x) (p x) (d x) ∧ ∀ u, Evals (setting (F u) (N u)) h x (V x u)) →
        (∀ x, IsLeaf g x → x ∉ xs → ∀ u, Evals (setting (F u) (N u)) h x (p x)) →
        ∃ Y : ℝ → Nat → Arr ℝ, (∀ u n, n < g.nodes.length → Evals (setting (F u) (N u)) h n (Y u n) ∧ (Y u n).shape = (p n).shape ∧ (Still g xs n → Y u n = p n)) ∧
          HasDerivAt (fun u => (ys.map (fun y => total (Y u y))).sum) (xs.map (fun x => Prog.inner (p x).shape (G x).get (d x))).sum 0 := by
  have hleaf' : ∀ x ∈ xs, IsSource g x ∧ IsDiff g x := fun x hx => by
    obtain ⟨n, hn, hl⟩ := hleaf x hx
    obtain ⟨h1, h2⟩ := hP.leaf x n hn hl
    exact ⟨⟨n, hn, h2⟩, n, hn, h1⟩
  obtain ⟨g0, sys, hs, hall⟩ := Verif.Props.C18_grad_exact gradOps pick fuel g ys xs r hP.bpDag hpick hy hxs hleaf' h
  have hG := summed_good hP hs hy
  have hlow : ∀ n, n < g.nodes.length → withSums g p g0 n = p n := fun n hn => if_pos hn
  have hsys : ∀ s ∈ sys, ∃ y ∈ ys, ∃ nd, g0.nodes[s]? = some nd ∧ nd.incoming = [inp y] ∧ nd.op = .sumAll ∧ (withSums g p g0 s).shape = [] := by
    intro s hsm
    obtain ⟨h1, h2⟩ := (hs.fresh s).1 hsm
    obtain ⟨y, hym, _, hin, ho, _⟩ := summed_node hs (List.getElem?_eq_getElem h2) (by omega)
    refine ⟨y, hym, _, List.getElem?_eq_getElem h2, hin, ho, ?_⟩
    have : ¬ s < g.nodes.length := by omega
    simp [withSums, this, List.getElem?_eq_getElem h2, hin, Nd.sumAll, ofFn]
  have hsz : ∀ s ∈ sys, ¬ Still g xs s := fun s hsm hz => by
    have h1 := ((hs.fresh s).1 hsm).1
    have h2 := still_lt hz
    omega
  obtain ⟨σ, hσ⟩ : ∃ σ : Nat → ((List Nat → ℝ) →+ ℝ), ∀ y, (Still g xs y → σ y = 0) ∧ (¬ Still g xs y → σ y = innerHom (p y).shape (fun _ => 1)) := by
    classical
    exact ⟨fun y => if Still g xs y then 0 else innerHom (p y).shape (fun _ => 1), fun y => ⟨fun h => if_pos h, fun h => if_neg h⟩⟩
  obtain ⟨_, cov, hcov, hmov⟩ := hall (arrCalc (setting feeds env) g0 (Still g xs) (withSums g p g0)) (fun s => innerHom [] (fun _ => 1))
    σ (good_sound hG) (good_local hG)
    (by
      intro g1 o hg1 ho s hsm
      obtain ⟨_, _, _, _, _, _, hsh⟩ := hsys s hsm
      refine .inr ⟨hsz s hsm, ofFn [] (fun _ => 1), evals_run ho .nil rfl, hsh.symm, cont_ofFn _ _, fun τ => ?_⟩
      rw [hsh]
      rfl)
    (by
      intro s hsm y happ t
      obtain ⟨y', hym, nd, hn, hin, ho, hsh⟩ := hsys s hsm
      obtain ⟨nd', a, _, b, _⟩ := happ
      rw [hn] at a; cases a
      rw [hin] at b
      have hyy : y = y' := by simpa using b.symm
      subst hyy
      have hlin : (arrCalc (setting feeds env) g0 (Still g xs) (withSums g p g0)).lin s t = fun _ => ∑ i ∈ idxs (p y).shape, mask (Still g xs) t y i := by
        refine (lin_eq hn t).trans ?_
        rw [ho, hin]
        show (fun _ => ∑ i ∈ idxs (withSums g p g0 y).shape, mask (Still g xs) t y i) = _
        rw [hlow y (hy y hym)]
      rw [hlin]
      have hval : ∀ t : Nat → List Nat → ℝ, Prog.inner [] (fun _ => 1) (fun _ => ∑ i ∈ idxs (p y).shape, mask (Still g xs) t y i) = σ y (t y) := by
        intro t
        have e : idxs [] = {[]} := rfl
        by_cases hz : Still g xs y
        · rw [(hσ y).1 hz, mask_pos hz]
          simp [Prog.inner]
        · rw [(hσ y).2 hz, mask_neg hz]
          show _ = Prog.inner (p y).shape (fun _ => 1) (t y)
          simp [Prog.inner, e]
      exact hval t)
  have hxl : ∀ x ∈ xs, x < g.nodes.length := fun x hx => by
    obtain ⟨n, hn, _⟩ := hleaf x hx
    exact (List.getElem?_eq_some_iff.1 hn).1
  obtain ⟨G, hG1⟩ := forall₂_choose (P := fun x t v => Evals (setting feeds env) r.g t v ∧ v.shape = (p x).shape ∧
    ∀ τ : List Nat → ℝ, cov x τ = Prog.inner (p x).shape v.get τ) (ofFn [] (fun _ => 0)) hxs (forall₂_of_mem hcov fun x t hx hr => by
      obtain ⟨v, h1, h2, _, h3⟩ := (hr.resolve_left fun h => not_still (hleaf x hx) hx h.1).2
      rw [hlow x (hxl x hx)] at h2 h3
      exact ⟨v, h1, h2, h3⟩)
  have hGx : ∀ x ∈ xs, ∀ τ : List Nat → ℝ, cov x τ = Prog.inner (p x).shape (G x).get τ := fun x hx => by
    obtain ⟨k, hk⟩ := List.mem_iff_getElem?.1 hx
    obtain ⟨t, _, ht⟩ := (forall₂_get hG1).2 k x hk
    exact ht.2.2
  refine ⟨G, hG1.imp fun x t h => ⟨h.1, h.2.1⟩, fun F N V d h' hh hV hfix => ?_⟩
  obtain ⟨t0, Y, ht0, htd, hst, hY⟩ := graph_moves_sums hP hleaf hs hy F N V d hh hV hfix
  have hmem : ∀ x, x ∈ xs.toFinset ↔ x ∈ xs := fun x => List.mem_toFinset
  refine ⟨fun u y => Y y u, fun u n hn => ⟨(hY n hn).1 u, (hY n hn).2.1.shape u, fun h => (hY n hn).2.2 h u⟩, ?_⟩
  have hd : (ys.map (fun y => ∑ i ∈ idxs (p y).shape, (t0 y : List Nat → ℝ) i)).sum = (xs.map (fun x => Prog.inner (p x).shape (G x).get (d x))).sum := by
    have h1 : (ys.map (fun y => σ y (t0 y))).sum = (xs.map (fun x => (cov x : (List Nat → ℝ) →+ ℝ) (t0 x))).sum := hmov t0 ht0
    rw [show (ys.map (fun y => ∑ i ∈ idxs (p y).shape, (t0 y : List Nat → ℝ) i)) = ys.map (fun y => σ y (t0 y)) from
      List.map_congr_left fun y _ => by
        by_cases hz : Still g xs y
        · rw [(hσ y).1 hz, hst y hz]
          exact Finset.sum_const_zero
        · rw [(hσ y).2 hz]
          show _ = Prog.inner (p y).shape (fun _ => 1) (t0 y)
          simp [Prog.inner], h1]
    congr 1
    refine List.map_congr_left fun x hx => ?_
    rw [htd x ((hmem x).2 hx)]
    exact hGx x hx (d x)
  rw [← hd]
  exact hasDerivAt_list_sum (f := fun u y => total (Y y u)) (τ := fun y => ∑ i ∈ idxs (p y).shape, (t0 y : List Nat → ℝ) i) fun y hym => total_deriv (hY y (hy y hym)).2.1

/-- `grad` computes the derivative of the sum of the elements of the `ys`. -/
theorem graph_gradient (hP : ProgGraph g xs feeds env p) (hns : StopsStill g xs)
    (pick : Graph POp → List Nat → Nat) (hpick : PicksMax pick) (fuel : Nat) (ys : List Nat)
    (hy : ∀ y ∈ ys, y < g.nodes.length) (hxs : xs.Nodup) (hleaf : ∀ x ∈ xs, IsLeaf g x) (r : GradResult POp)
    (h : grad gradOps pick fuel g ys xs = some (.ok r)) :
    ∃ G : Nat → Arr ℝ, List.Forall₂ (fun x t => Evals (setting feeds env) r.g t (G x) ∧ (G x).shape = (p x).shape) xs r.grads ∧
      ∀ (F : ℝ → List (Feed (Arr ℝ))) (N : ℝ → List (Arr ℝ)) (V : Nat → ℝ → Arr ℝ) (d : Nat → List Nat → ℝ),
        (∀ x ∈ xs, Moves (V x) (p x) (d x) ∧ ∀ u, Evals (setting (F u) (N u)) g x (V x u)) →
        (∀ x, IsLeaf g x → x ∉ xs → ∀ u, Evals (setting (F u) (N u)) g x (p x)) →
        ∃ Y : ℝ → Nat → Arr ℝ, (∀ u n, n < g.nodes.length → Evals (setting (F u) (N u)) g n (Y u n) ∧ (Y u n).shape = (p n).shape ∧ (Still g xs n → Y u n = p n)) ∧
          HasDerivAt (fun u => (ys.map (fun y => total (Y u y))).sum) (xs.map (fun x => Prog.inner (p x).shape (G x).get (d x))).sum 0 := by
  obtain ⟨G, h1, h2⟩ := graph_gradient_held hP pick hpick fuel ys hy hxs hleaf r h
  exact ⟨G, h1, fun F N V d hV hfix => h2 F N V d g (held_self hns) hV hfix⟩

end

end Verif.Prog
