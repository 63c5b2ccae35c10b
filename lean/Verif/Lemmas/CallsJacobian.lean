import Verif.Lemmas.CallsGrad
import Verif.Lemmas.JacobianElems
import Verif.Lemmas.JacobianCount

/-! The Jacobian matrices of a program given as a list of calls. -/

namespace Verif.Prog
open Verif Verif.Spec Verif.Gradient Verif.Graph Verif.Eval Verif.Nd Verif.Hint

theorem elemGrads_builds {pick : Graph POp → List Nat → Nat} {fuel y : Nat} {xs : List Nat} : ∀ {is : List Nat} {G G' : Graph POp} {vs : List (List Nat)},
    elemGrads pick fuel y xs is G = some (.ok (G', vs)) → Builds G G' ∧ vs.length = is.length := by
  intro is
  induction is with
  | nil => intro G G' vs h; cases h; exact ⟨.refl, rfl⟩
  | cons i is ih =>
    intro G G' vs h
    unfold elemGrads at h
    cases hm : mk G (.plain (.index (i : Int)) [inp y]) with
    | error p => simp [hm] at h
    | ok v =>
      obtain ⟨G1, e⟩ := v
      simp only [hm] at h
      cases hg : grad gradOps pick fuel G1 [e] xs with
      | none => simp [hg] at h
      | some w =>
        cases w with
        | error p => simp [hg] at h
        | ok r =>
          simp only [hg] at h
          cases he : elemGrads pick fuel y xs is r.g with
          | none => simp [he] at h
          | some w =>
            cases w with
            | error p => simp [he] at h
            | ok v =>
              obtain ⟨G2, vs'⟩ := v
              simp only [he] at h
              cases h
              obtain ⟨b1, b2⟩ := ih he
              exact ⟨(mk_builds (op := .index (i : Int)) (xs := [y]) hm rfl).trans ((grad_builds opGrad_builds hg).trans b1), by simp [b2]⟩

theorem rowT_builds {g g' : Graph POp} {x t : Nat} (h : rowT g x = .ok (g', t)) : Builds g g' := by
  unfold rowT at h
  cases h1 : mk g (.scalar (.scalar (-1))) with
  | error p => simp [h1, bind, Except.bind] at h
  | ok v =>
    obtain ⟨g1, c⟩ := v
    simp only [h1, bind, Except.bind] at h
    cases h2 : mk g1 (.like .reshape [inp x, inp c] x) with
    | error p => simp [h2] at h
    | ok v =>
      obtain ⟨g2, f⟩ := v
      simp only [h2] at h
      cases h3 : mk g2 (.const [1] (.const (vec [0]))) with
      | error p => simp [h3] at h
      | ok v =>
        obtain ⟨g3, a⟩ := v
        simp only [h3] at h
        exact (mk_builds (op := .scalar (-1)) (xs := []) h1 rfl).trans ((mk_builds (op := .reshape) (xs := [x, c]) h2 rfl).trans
          ((mk_builds (op := .const (vec [0])) (xs := []) h3 rfl).trans (mk_builds (op := .expandDims) (xs := [f, a]) h rfl)))

theorem rowsT_builds : ∀ {xs : List Nat} {g g' : Graph POp} {ts : List Nat}, rowsT xs g = .ok (g', ts) → Builds g g' := by
  intro xs
  induction xs with
  | nil => intro g g' ts h; cases h; exact .refl
  | cons x xs ih =>
    intro g g' ts h
    unfold rowsT at h
    cases h1 : rowT g x with
    | error p => simp [h1, bind, Except.bind] at h
    | ok v =>
      obtain ⟨g1, t⟩ := v
      simp only [h1, bind, Except.bind] at h
      cases h2 : rowsT xs g1 with
      | error p => simp [h2] at h
      | ok v =>
        obtain ⟨g2, ts'⟩ := v
        simp only [h2] at h
        cases h
        exact (rowT_builds h1).trans (ih h2)

theorem matrices_builds {lay : List (Arr ℝ) → List Int} {vecs : List (List Nat)} : ∀ {js : List Nat} {g g' : Graph POp} {ms : List Nat},
    matrices lay vecs js g = .ok (g', ms) → Builds g g' := by
  intro js
  induction js with
  | nil => intro g g' ms h; cases h; exact .refl
  | cons j js ih =>
    intro g g' ms h
    unfold matrices at h
    cases hc : column j vecs with
    | error p => simp [hc, bind, Except.bind] at h
    | ok col =>
      simp only [hc, bind, Except.bind] at h
      cases h1 : rowsT col g with
      | error p => simp [h1, liftJ] at h
      | ok v =>
        obtain ⟨g1, ts⟩ := v
        simp only [h1, liftJ] at h
        by_cases hts : ts = []
        · simp [concatT, hts] at h
        simp only [concatT, if_neg hts] at h
        cases h2 : mk g1 (.plain (.concat lay 0) (ts.map inp)) with
        | error p => simp [h2, liftJ] at h
        | ok v =>
          obtain ⟨g2, m⟩ := v
          simp only [h2, liftJ] at h
          cases h3 : matrices lay vecs js g2 with
          | error p => simp [h3] at h
          | ok v =>
            obtain ⟨g3, ms'⟩ := v
            simp only [h3] at h
            cases h
            exact (rowsT_builds h1).trans ((mk_builds (op := .concat lay 0) (xs := ts) h2 rfl).trans (ih h3))

/-- The Jacobians of a program. -/
theorem calls_jacobians (l : List Stmt) (hs : Scoped l) (g : Graph POp) (ids : List Nat) (hb : buildCalls l = .ok (g, ids))
    (fs : List (String × Arr ℝ)) (env : List (Arr ℝ)) (val : Nat → Arr ℝ) (hd : Denotes fs env l val)
    (xs vids : List Nat) (hx : List.Forall₂ (fun k vid => l[k]? = some (.var vid)) xs vids) (hnd : vids.Nodup)
    (hok : ∀ s ∈ l, StmtOk (Fixed l vids) (FlatIn l val) val s ∧ GradGivenFor (Fixed l vids) s) (y : Nat) (hy : y < l.length)
    (hc : Contig (val y).shape (val y).strides) (n : Nat) (hn0 : 0 < n) (hn : n ≤ Nd.size (val y).shape)
    (pick : Graph POp → List Nat → Nat) (hpick : PicksMax pick) (lay : List (Arr ℝ) → List Int) :
    ∃ N, ∀ fuel, N ≤ fuel →
      jacobians pick fuel lay g (ids.getD y 0) (xs.map (fun k => ids.getD k 0)) n = some (.error (.grad (.graph .graphTooLarge))) ∧
        500000 < (n + 1) * (120 * l.length + 10 * xs.length + 95) ∨
      ∃ g' js, jacobians pick fuel lay g (ids.getD y 0) (xs.map (fun k => ids.getD k 0)) n = some (.ok (g', js)) ∧ Verif.Props.Reachable hintOps.toOps g' ∧ OldRead g' ∧
        List.Forall₂ (fun vid t => ∃ a v : Arr ℝ, env[vid]? = some a ∧ v.shape = [n, Nd.size a.shape] ∧ Evals (setting (named fs) env) g' t v ∧
          ∀ i < n, ∀ q, InB q a.shape → ∃ Vals : ℝ → Nat → Arr ℝ, (∀ u, Denotes fs (env.set vid (nudge a q u)) l (Vals u) ∧ ∀ k < l.length, (Vals u k).shape = (val k).shape) ∧
            HasDerivAt (fun u => (Vals u y).get (unflat (val y).shape i)) (v.get [i, flat a.shape q]) 0) vids js := by
  have hB := built hb hs
  obtain ⟨hi, hv⟩ := buildCalls_values hb hs (fun s h => stmtOk_weaken (fun _ _ => trivial) (fun _ _ _ => trivial) (hok s h).1) hd
  have hid : ∀ k < l.length, ids.getD k 0 < g.nodes.length := fun k hk => evals_lt (hv k hk)
  have : ∀ n, ∃ v, n < g.nodes.length → Evals (setting (named fs) env) g n v := fun n => by
    by_cases hn : n < g.nodes.length
    · obtain ⟨v, h, _⟩ := hi.vals n hn
      exact ⟨v, fun _ => h⟩
    · exact ⟨val 0, fun h => absurd h hn⟩
  choose p hp using this
  have hpv : ∀ k < l.length, p (ids.getD k 0) = val k := fun k hk => evals_unique' (hp _ (hid k hk)) (hv k hk)
  have hargs : ∀ s ∈ l, ∀ a ∈ s.args, a < l.length := fun s hsl a ha => by
    obtain ⟨k, hk⟩ := List.mem_iff_getElem?.1 hsl
    have := hs k s hk a ha
    have := (List.getElem?_eq_some_iff.1 hk).1
    omega
  have hok' : ∀ s ∈ l.map (Stmt.rename (fun k => ids.getD k 0)), StmtOk (Still g (xs.map (fun k => ids.getD k 0))) (Flat g p) p s := by
    intro s' hs'
    obtain ⟨s, hsl, rfl⟩ := List.mem_map.1 hs'
    exact stmtOk_rename (fun a _ h => fixed_still hB hx h) (fun a _ i h => flat_of hs hB hpv h) (fun a ha => hpv a (hargs s hsl a ha)) (hok s hsl).1
  have hgg : ∀ s ∈ l.map (Stmt.rename (fun k => ids.getD k 0)), GradGivenFor (Still g (xs.map (fun k => ids.getD k 0))) s := by
    intro s' hs'
    obtain ⟨s, hsl, rfl⟩ := List.mem_map.1 hs'
    exact gradGiven_rename (fun a _ h => fixed_still hB hx h) (hok s hsl).2
  have hvar : ∀ x ∈ xs, ∃ vid ∈ vids, IsVariable g (ids.getD x 0) vid := fun x h => by
    obtain ⟨vid, h1, h2⟩ := varCalls_mem hx h
    exact ⟨vid, h1, hB.tensor x _ h2⟩
  have hleaf : ∀ x ∈ xs.map (fun k => ids.getD k 0), IsLeaf g x := by
    intro x' h
    obtain ⟨x, hxm, rfl⟩ := List.mem_map.1 h
    obtain ⟨vid, _, nd, a, b⟩ := hvar x hxm
    exact ⟨nd, a, .inr (by rw [b]; simp)⟩
  have hxn := ids_nodup hB hx hnd
  have hP := progGraph hB.run hp hok'
  have hS := progShape hB.run hgg
  have hpy := hpv y hy
  have hlen : g.nodes.length ≤ 4 * l.length := by
    have := (adds_program (l := l.map (Stmt.rename (fun k => ids.getD k 0))) (g := Graph.empty)).ok _ hB.run
    simpa [glen, Graph.empty] using this
  obtain ⟨K, hK⟩ := elemGrads_ok hP (stopsStill hB.run hok') hS (hid y hy) (by rw [hpy]; exact hc) pick hpick hxn hleaf (is := List.range n) (grows_refl g) hS.hints hS.bpDag (fun i hi => by
    rw [hpy]; have := List.mem_range.1 hi; omega)
  refine ⟨K, fun fuel hf => ?_⟩
  have hbound : g.nodes.length + n * (30 * g.nodes.length + 2 * xs.length + 95) + xs.length * (8 * n + 1) ≤ (n + 1) * (120 * l.length + 10 * xs.length + 95) := by
    have h1 : n * (30 * g.nodes.length + 2 * xs.length + 95) ≤ n * (120 * l.length + 2 * xs.length + 95) := Nat.mul_le_mul_left _ (by omega)
    have h2 : (n + 1) * (120 * l.length + 10 * xs.length + 95) = n * (120 * l.length + 2 * xs.length + 95) + (8 * (xs.length * n) + (120 * l.length + 10 * xs.length + 95)) := by ring
    have h3 : xs.length * (8 * n + 1) = 8 * (xs.length * n) + xs.length := by ring
    omega
  unfold jacobians
  rcases hK fuel hf with ⟨h, hlt⟩ | ⟨G', vecs, h1, h2, h3, h4, h5⟩
  · left
    rw [h]
    refine ⟨rfl, ?_⟩
    have hlt : 500000 < _ := hlt
    rw [List.length_range, List.length_map] at hlt
    omega
  obtain ⟨b1, b2⟩ := elemGrads_builds h1
  rw [List.length_range] at b2
  obtain ⟨D, hD⟩ := forall₂_choose (fun _ => val 0) List.nodup_range h5
  have hD1 := hD.imp fun _ _ h => h.1
  have hD2 : ∀ i < n, ElemDeriv g (xs.map (fun k => ids.getD k 0)) p (ids.getD y 0) i (D i) := by
    intro i hi
    have := List.Forall₂.get hD (i := i) (by simpa using hi) (by omega)
    simpa using this.2
  have hcnt := adds_matrices (lay := lay) (vecs := vecs) (js := List.range (xs.map (fun k => ids.getD k 0)).length) (g := G')
  have hz : List.Forall₂ (fun j x => (xs.map (fun k => ids.getD k 0))[j]? = some x) (List.range (xs.map (fun k => ids.getD k 0)).length) (xs.map (fun k => ids.getD k 0)) := by
    rw [List.forall₂_iff_get]
    refine ⟨by simp, fun i h1 h2 => ?_⟩
    simp only [List.get_eq_getElem, List.getElem_range]
    exact List.getElem?_eq_getElem h2
  rw [h1]
  rcases matrices_ok lay (F := named fs) (N := env) (is := List.range n) (by simp; omega) h3 (h2.2 hP.closed) hD1 hz with h | ⟨g', ms, m1, m2, m3, m4⟩
  · left
    refine ⟨by simp only [h], ?_⟩
    have : 500000 < _ := hcnt.err h
    rw [List.length_range, List.length_map] at this h4
    rw [b2] at this
    omega
  right
  refine ⟨g', ms, by simp only [m1], ?_⟩
  have hbl := b1.trans (matrices_builds m1)
  refine ⟨hbl.reach (prog_reach hB.run), hbl.oldRead (prog_oldRead hP), ?_⟩
  rw [List.forall₂_map_left_iff] at m4
  refine forall₂_zip hx (forall₂_of_mem m4 fun x t hxm hG vid hxv => ?_)
  have hxV : IsVariable g (ids.getD x 0) vid := hB.tensor x _ hxv
  have hxl : ids.getD x 0 < g.nodes.length := hid x (List.getElem?_eq_some_iff.1 hxv).1
  generalize hx0 : ids.getD x 0 = x0 at hG hxV hxl
  have hx0m : x0 ∈ xs.map (fun k => ids.getD k 0) := List.mem_map.2 ⟨x, hxm, hx0⟩
  obtain ⟨e1, e2⟩ := variable_evals hxV (hp x0 hxl)
  obtain ⟨M, M1, M2, M3⟩ := hG
  refine ⟨p x0, M, e1, by rw [M2, List.length_range], M1, fun i hin q hq => ?_⟩
  have hlf : ∀ z, IsLeaf g z → z < g.nodes.length := fun z hz => by
    obtain ⟨n, hn, _⟩ := hz
    exact (List.getElem?_eq_some_iff.1 hn).1
  obtain ⟨Y, hY1, hY2⟩ := hD2 i hin (fun _ => named fs) (fun u => env.set vid (nudge (p x0) q u)) (fun z u => if z = x0 then nudge (p x0) q u else p z)
    (fun z j => if z = x0 then (if j = q then 1 else 0) else 0)
    (by
      intro z hz
      by_cases hzx : z = x0
      · subst hzx
        simp only [if_true]
        exact ⟨nudge_moves (p z) q, fun u => e2 _⟩
      · simp only [hzx, if_false]
        exact ⟨moves_const (p z), fun u => other_evals hP.wf hxV hzx (hleaf z hz) (hp z (hlf z (hleaf z hz))) _⟩)
    (by
      intro z hz hzx u
      exact other_evals hP.wf hxV (by rintro rfl; exact hzx hx0m) hz (hp z (hlf z hz)) _)
  refine ⟨fun u k => Y u (ids.getD k 0), fun u => ⟨denotes_of_evals hB hs (fun n hn => (hY1 u n hn).1) hid fun k z hk => ?_, fun k hk => by rw [(hY1 u _ (hid k hk)).2.1, hpv k hk]⟩, ?_⟩
  · have hkl := (List.getElem?_eq_some_iff.1 hk).1
    have hzl : z < l.length := by
      have := hs k _ hk z (by simp [Stmt.args])
      omega
    rw [(hY1 u _ (hid k hkl)).2.2 (shape_still hB.hinv _ _ (hB.shape k z hk)), (hY1 u _ (hid z hzl)).2.1, hpv k hkl, hpv z hzl]
    exact hd k _ hk
  · have hsum : ((xs.map (fun k => ids.getD k 0)).map (fun z => Prog.inner (p z).shape (D i z).get (fun j => if z = x0 then (if j = q then (1 : ℝ) else 0) else 0))).sum = (D i x0).get q := by
      rw [← sum_toFinset hxn, Finset.sum_eq_single x0]
      · simp only [if_true]
        exact inner_single hq _
      · intro z _ hz
        simp [Prog.inner, hz]
      · intro hn; exact absurd (List.mem_toFinset.2 hx0m) hn
    rw [hsum, hpy] at hY2
    rw [M3 i i (by simp [hin]) _ (flat_lt hq), unflat_flat hq]
    exact hY2

end Verif.Prog
