import Verif.Lemmas.CallsHeld
import Verif.Props.Program

/-! The gradients of a program with calls of `stop_gradient`. -/

namespace Verif.Props
open Verif Verif.Spec Verif.Gradient Verif.Graph Verif.Eval Verif.Nd Verif.Prog

/-- The gradients are the derivatives of the function that the calls compute when the results of `stop_gradient` are held. -/
theorem calls_held (l : List Stmt) (hs : Scoped l) (g : Graph POp) (ids : List Nat) (hb : buildCalls l = .ok (g, ids))
    (fs : List (String × Arr ℝ)) (env : List (Arr ℝ)) (val : Nat → Arr ℝ) (hd : Denotes fs env l val)
    (xs vids : List Nat) (hx : List.Forall₂ (fun k vid => l[k]? = some (.var vid)) xs vids) (hnd : vids.Nodup)
    (hok : ∀ s ∈ l, (StmtOk (Fixed l vids) (FlatIn l val) val s ∨ ∃ x, s = .stopGradient x) ∧ GradGivenFor (Fixed l vids) s) (ys : List Nat) (hys : ys ≠ []) (hy : ∀ y ∈ ys, y < l.length)
    (pick : Graph POp → List Nat → Nat) (hpick : PicksMax pick) :
    ∃ N, ∀ fuel, N ≤ fuel →
      grad gradOps pick fuel g (ys.map (fun k => ids.getD k 0)) (xs.map (fun k => ids.getD k 0)) = some (.error (.graph .graphTooLarge)) ∧
        500000 < 32 * (4 * l.length + ys.length + xs.length + 1) ∨
      ∃ r, grad gradOps pick fuel g (ys.map (fun k => ids.getD k 0)) (xs.map (fun k => ids.getD k 0)) = some (.ok r) ∧ Builds g r.g ∧ Reachable hintOps.toOps r.g ∧ OldRead r.g ∧
        (32 * (4 * l.length + ys.length + xs.length + 1) ≤ 500000 → r.g.nodes.length ≤ 32 * (4 * l.length + ys.length + xs.length + 1)) ∧
        List.Forall₂ (fun vid t => ∃ a v : Arr ℝ, env[vid]? = some a ∧ v.shape = a.shape ∧
          Evals (setting (named fs) env) r.g t v ∧
          ∀ i, InB i a.shape → ∃ Vals : ℝ → Nat → Arr ℝ, (∀ u, DenotesHeld fs (env.set vid (nudge a i u)) l val (Vals u) ∧ ∀ k < l.length, (Vals u k).shape = (val k).shape ∧ (Fixed l vids k → Vals u k = val k)) ∧
            HasDerivAt (fun u => (ys.map (fun y => total (Vals u y))).sum) (v.get i) 0) vids r.grads := by
  have hB := built hb hs
  obtain ⟨hi, hv⟩ := buildCalls_values hb hs (fun s h => (hok s h).1.elim (stmtOk_weaken (fun _ _ => trivial) (fun _ _ _ => trivial)) fun ⟨x, e⟩ => by rw [e]; trivial) hd
  have hid : ∀ k < l.length, ids.getD k 0 < g.nodes.length := fun k hk => evals_lt (hv k hk)
  have : ∀ n, ∃ v, n < g.nodes.length → Evals (setting (named fs) env) g n v := fun n => by
    by_cases hn : n < g.nodes.length
    · obtain ⟨v, h, _⟩ := hi.vals n hn
      exact ⟨v, fun _ => h⟩
    · exact ⟨val 0, fun h => absurd h hn⟩
  choose p hp using this
  have hpv : ∀ k < l.length, p (ids.getD k 0) = val k := fun k hk => evals_unique' (hp _ (hid k hk)) (hv k hk)
  have hargs : ∀ s ∈ l, ∀ a ∈ s.args, a < l.length := fun s hsl a ha => by
    obtain ⟨k, hk⟩ := List.mem_iff_getElem?.1 hsl
    have := hs k s hk a ha
    have := (List.getElem?_eq_some_iff.1 hk).1
    omega
  have hok' : ∀ s ∈ l.map (Stmt.rename (fun k => ids.getD k 0)), StmtOk (Still g (xs.map (fun k => ids.getD k 0))) (Flat g p) p s ∨ ∃ x, s = .stopGradient x := by
    intro s' hs'
    obtain ⟨s, hsl, rfl⟩ := List.mem_map.1 hs'
    rcases (hok s hsl).1 with h | ⟨x, rfl⟩
    · exact .inl (stmtOk_rename (fun a _ h => fixed_still hB hx h) (fun a _ i h => flat_of hs hB hpv h) (fun a ha => hpv a (hargs s hsl a ha)) h)
    · exact .inr ⟨_, rfl⟩
  have hgg : ∀ s ∈ l.map (Stmt.rename (fun k => ids.getD k 0)), GradGivenFor (Still g (xs.map (fun k => ids.getD k 0))) s := by
    intro s' hs'
    obtain ⟨s, hsl, rfl⟩ := List.mem_map.1 hs'
    exact gradGiven_rename (fun a _ h => fixed_still hB hx h) (hok s hsl).2
  have hy' : ∀ y ∈ ys.map (fun k => ids.getD k 0), y < g.nodes.length := by
    intro y' h
    obtain ⟨y, hym, rfl⟩ := List.mem_map.1 h
    exact hid y (hy y hym)
  have hvar : ∀ x ∈ xs, ∃ vid ∈ vids, IsVariable g (ids.getD x 0) vid := fun x h => by
    obtain ⟨vid, h1, h2⟩ := varCalls_mem hx h
    exact ⟨vid, h1, hB.tensor x _ h2⟩
  have hleaf : ∀ x ∈ xs.map (fun k => ids.getD k 0), IsLeaf g x := by
    intro x' h
    obtain ⟨x, hxm, rfl⟩ := List.mem_map.1 h
    obtain ⟨vid, _, nd, a, b⟩ := hvar x hxm
    exact ⟨nd, a, .inr (by rw [b]; simp)⟩
  obtain ⟨N, hN⟩ : ∃ N, ∀ fuel, N ≤ fuel → (∃ r, grad gradOps pick fuel g (ys.map (fun k => ids.getD k 0)) (xs.map (fun k => ids.getD k 0)) = some (.ok r) ∧
        (32 * (4 * l.length + ys.length + xs.length + 1) ≤ 500000 → r.g.nodes.length ≤ 32 * (4 * l.length + ys.length + xs.length + 1))) ∨
      grad gradOps pick fuel g (ys.map (fun k => ids.getD k 0)) (xs.map (fun k => ids.getD k 0)) = some (.error (.graph .graphTooLarge)) ∧
        500000 < 32 * (4 * l.length + ys.length + xs.length + 1) := by
    by_cases hsm : 32 * (4 * l.length + ys.length + xs.length + 1) ≤ 500000
    · obtain ⟨N, hN⟩ := C58_small_returns_partial _ g ids hB.run pick hpick (ys.map (fun k => ids.getD k 0)) (xs.map (fun k => ids.getD k 0)) (by simpa using hys) hgg hy' hleaf (by simpa using hsm)
      exact ⟨N, fun fuel hf => (hN fuel hf).elim fun r h => .inl ⟨r, h.1, fun _ => by simpa using h.2.2⟩⟩
    · obtain ⟨N, hN⟩ := C58_grad_returns_partial _ g ids hB.run pick hpick (ys.map (fun k => ids.getD k 0)) (xs.map (fun k => ids.getD k 0)) (by simpa using hys) hgg hy' hleaf
      exact ⟨N, fun fuel hf => (hN fuel hf).elim (fun ⟨r, h, _⟩ => .inl ⟨r, h, fun h' => absurd h' hsm⟩) fun h => .inr ⟨h, by omega⟩⟩
  refine ⟨N, fun fuel hf => ?_⟩
  rcases hN fuel hf with ⟨r, hr, hsize⟩ | h
  swap
  · exact .inl h
  refine .inr ⟨r, hr, ?_⟩
  have hxn := ids_nodup hB hx hnd
  have hP := progGraph_held hB.run hp hok'
  have hst := stopOps hP
  obtain ⟨G, h1, h2⟩ := graph_gradient_held hP pick hpick fuel _ hy' hxn hleaf r hr
  have hbl := grad_builds opGrad_builds hr
  rw [List.forall₂_map_left_iff] at h1
  have hfinal : List.Forall₂ (fun x t => ∀ vid, l[x]? = some (.var vid) → ∃ a v : Arr ℝ, env[vid]? = some a ∧ v.shape = a.shape ∧
          Evals (setting (named fs) env) r.g t v ∧
          ∀ i, InB i a.shape → ∃ Vals : ℝ → Nat → Arr ℝ, (∀ u, DenotesHeld fs (env.set vid (nudge a i u)) l val (Vals u) ∧ ∀ k < l.length, (Vals u k).shape = (val k).shape ∧ (Fixed l vids k → Vals u k = val k)) ∧
            HasDerivAt (fun u => (ys.map (fun y => total (Vals u y))).sum) (v.get i) 0) xs r.grads := by
    refine forall₂_of_mem h1 fun x t hxm hG vid hxv => ?_
    have hxV : IsVariable g (ids.getD x 0) vid := hB.tensor x _ hxv
    have hxl : ids.getD x 0 < g.nodes.length := hid x (List.getElem?_eq_some_iff.1 hxv).1
    generalize hx0 : ids.getD x 0 = x0 at hG hxV hxl
    have hx0m : x0 ∈ xs.map (fun k => ids.getD k 0) := List.mem_map.2 ⟨x, hxm, hx0⟩
    obtain ⟨e1, e2⟩ := variable_evals hxV (hp x0 hxl)
    refine ⟨p x0, G x0, e1, hG.2, hG.1, fun i hin => ?_⟩
    have hlf : ∀ z, IsLeaf g z → z < g.nodes.length := fun z hz => by
      obtain ⟨n, hn, _⟩ := hz
      exact (List.getElem?_eq_some_iff.1 hn).1
    obtain ⟨Y, hY1, hY2⟩ := h2 (fun _ => named fs) (fun u => env.set vid (nudge (p x0) i u)) (fun z u => if z = x0 then nudge (p x0) i u else p z)
      (fun z j => if z = x0 then (if j = i then 1 else 0) else 0) (hold p g) (hold_held p)
      (by
        intro z hz
        by_cases hzx : z = x0
        · subst hzx
          simp only [if_true]
          exact ⟨nudge_moves (p z) i, fun u => leaf_hold p hst (hleaf z hz) (e2 _)⟩
        · simp only [hzx, if_false]
          exact ⟨moves_const (p z), fun u => leaf_hold p hst (hleaf z hz) (other_evals hP.wf hxV hzx (hleaf z hz) (hp z (hlf z (hleaf z hz))) _)⟩)
      (by
        intro z hz hzx u
        exact leaf_hold p hst hz (other_evals hP.wf hxV (by rintro rfl; exact hzx hx0m) hz (hp z (hlf z hz)) _))
    refine ⟨fun u k => Y u (ids.getD k 0), fun u => ⟨denotesHeld_of_evals hB hs p hst (fun n hn => (hY1 u n hn).1) hid (fun k z hk => ?_) fun k z hk => ?_,
      fun k hk => ⟨by rw [(hY1 u _ (hid k hk)).2.1, hpv k hk], fun hfx => by dsimp only; rw [(hY1 u _ (hid k hk)).2.2 (fixed_still hB hx hfx), hpv k hk]⟩⟩, ?_⟩
    · have hkl := (List.getElem?_eq_some_iff.1 hk).1
      rw [(hY1 u _ (hid k hkl)).2.2 (fixed_still hB hx (.stop hk)), hpv k hkl]
    · have hkl := (List.getElem?_eq_some_iff.1 hk).1
      have hzl : z < l.length := by
        have := hs k _ hk z (by simp [Stmt.args])
        omega
      rw [(hY1 u _ (hid k hkl)).2.2 (shape_still hB.hinv _ _ (hB.shape k z hk)), (hY1 u _ (hid z hzl)).2.1, hpv k hkl, hpv z hzl]
      exact hd k _ hk
    · have hsum : ((xs.map (fun k => ids.getD k 0)).map (fun z => Prog.inner (p z).shape (G z).get (fun j => if z = x0 then (if j = i then (1 : ℝ) else 0) else 0))).sum = (G x0).get i := by
        rw [← sum_toFinset hxn, Finset.sum_eq_single x0]
        · simp only [if_true]
          exact inner_single hin _
        · intro z _ hz
          simp [Prog.inner, hz]
        · intro hn; exact absurd (List.mem_toFinset.2 hx0m) hn
      rw [← hsum]
      have : (fun u => (ys.map (fun y => total (Y u (ids.getD y 0)))).sum) = fun u => ((ys.map (fun k => ids.getD k 0)).map (fun y => total (Y u y))).sum := by
        funext u
        rw [List.map_map]; rfl
      rw [this]
      exact hY2
  exact ⟨hbl, hbl.reach (prog_reach hB.run), hbl.oldRead (prog_oldRead hP), hsize, forall₂_zip hx hfinal⟩

end Verif.Props
