import Mathlib.Algebra.Field.Rat
import Mathlib.Tactic.NormNum
import Verif.Model.ArrayOps
import Verif.Props.Optimizers

/-! # Property theorems about update steps and assignments: C44 (success), C45, C47 -/

namespace Verif.Props
open Verif Verif.Spec Verif.Eval Verif.Graph Verif.Opt Verif.OptState Verif.Nd Relation
variable {Op V E W R : Type}

/-! ## C44 When the update ops succeed -/

/-- **C44** The update ops do not panic when the gradient can be broadcast to the parameter (SGD, MomentumSGD, Adam); AdaGrad succeeds exactly
when the gradient has the shape of the parameter. State arrays have the shape of the parameter. -/
theorem C44_step_succeeds [Field R] (p g m v t : Arr R) (hm : m.shape = p.shape) (hv : v.shape = p.shape) :
    (∀ alpha : R, (∃ p', sgdStep alpha p g = .ok p') ↔ BroadcastsTo g.shape p.shape) ∧
    (∀ lr mu : R, (∃ r, momentumStep lr mu p g m = .ok r) ↔ BroadcastsTo g.shape p.shape) ∧
    (∀ (sqrt : R → R) (lr : R), (∃ r, adagradStep sqrt lr p g m = .ok r) ↔ g.shape = p.shape) ∧
    (∀ (sqrt : R → R) (powf : R → R → R) (c : AdamCfg R), (∃ r, adamStep sqrt powf c p g m v t = .ok r) ↔ BroadcastsTo g.shape p.shape) := by
  have hself : ∀ s : List Nat, BroadcastsTo s s := fun s => broadcastsTo_self s
  refine ⟨fun alpha => ⟨fun ⟨p', h⟩ => (zipMut_ok h).1, fun h => zipMut_some _ h⟩, fun lr mu => ⟨?_, ?_⟩, fun sqrt lr => ⟨?_, ?_⟩,
    fun sqrt powf c => ⟨?_, ?_⟩⟩
  · rintro ⟨r, h⟩
    simp only [momentumStep, bind_ok] at h
    obtain ⟨v', h1, _⟩ := h
    rw [← hm]; exact (zipMut_ok h1).1
  · intro h
    obtain ⟨v', h1⟩ := zipMut_some (fun v g => v * mu - lr * g) (a := m) (b := g) (by rw [hm]; exact h)
    obtain ⟨p', h2⟩ := zipMut_some (fun p v => p + v) (a := p) (b := v') (by rw [(zipMut_ok h1).2.1, hm]; exact hself _)
    exact ⟨(p', v'), by simp only [momentumStep, bind_ok]; exact ⟨v', h1, p', h2, rfl⟩⟩
  · rintro ⟨r, h⟩
    simp only [adagradStep, bind_ok] at h
    obtain ⟨h', h1, p', h2, _⟩ := h
    exact (zip3_ok h2).1
  · intro h
    obtain ⟨h', h1⟩ := zipMut_some (fun h g => h + g * g) (a := m) (b := g) (by rw [hm, h]; exact hself _)
    have h2 : h'.shape = p.shape := by rw [(zipMut_ok h1).2.1, hm]
    refine ⟨_, by simp only [adagradStep, bind_ok]; exact ⟨h', h1, _, by unfold zip3; rw [if_pos ⟨h, h2⟩], rfl⟩⟩
  · rintro ⟨r, h⟩
    simp only [adamStep, bind_ok] at h
    obtain ⟨m', h1, _⟩ := h
    rw [← hm]; exact (zipMut_ok h1).1
  · intro h
    obtain ⟨m', h1⟩ := zipMut_some (fun x g => x * c.b1 + (1 - c.b1) * g) (a := m) (b := g) (by rw [hm]; exact h)
    obtain ⟨v', h2⟩ := zipMut_some (fun x g => x * c.b2 + (1 - c.b2) * g * g) (a := v) (b := g) (by rw [hv]; exact h)
    obtain ⟨q, h3⟩ := zipMut_some (fun a b => a / (sqrt b + c.eps))
      (a := Nd.map (fun x => x * (1 / (1 - powf c.b1 (t.get (t.shape.map fun _ => 0))))) m')
      (b := Nd.map (fun x => x * (1 / (1 - powf c.b2 (t.get (t.shape.map fun _ => 0))))) v')
      (by show BroadcastsTo v'.shape m'.shape; rw [(zipMut_ok h1).2.1, (zipMut_ok h2).2.1, hm, hv]; exact hself _)
    have hq : q.shape = p.shape := by rw [(zipMut_ok h3).2.1]; show m'.shape = _; rw [(zipMut_ok h1).2.1, hm]
    obtain ⟨p', h4⟩ := zipMut_some (fun l r => l - c.alpha * r) (a := p) (b := q) (by rw [hq]; exact hself _)
    refine ⟨_, by simp only [adamStep, bind_ok]; exact ⟨m', h1, v', h2, q, h3, p', h4, rfl⟩⟩

example : ∃ p g m v : Arr ℚ, m.shape = p.shape ∧ v.shape = p.shape ∧ BroadcastsTo g.shape p.shape ∧ g.shape ≠ p.shape :=
  ⟨ofFn [2, 3] (fun _ => 1), ofFn [3] (fun _ => 2), ofFn [2, 3] (fun _ => 0), ofFn [2, 3] (fun _ => 0), rfl, rfl,
    broadcastsTo_iff.2 (bcastOk_iff.1 (by decide)), by decide⟩

/-! ## C45 Simultaneity -/

/-- **C45** (partial: under the hypotheses `hind` and `hvar`, see `C45_update_violated`) All updates of one run use the gradients at the
variable values before the run, provided that every gradient op which reads an updated variable is also needed by the update of this
very variable (`hind`), and no gradient tensor is itself the tensor of another updated variable (`hvar`). Ops below the updates are pure. -/
theorem C45_gradients_before_step_partial (O : Ops Op) (S : Sem Op V E W) (g : Graph Op) (fuel : Nat) (us : List Nat) (feeds : List (Feed V))
    (env : List V) (w : W) (res : EvalResult V E W) (f : Op → List (OpInput V) → Option (Except E (List V)))
    (hg : Reachable O g) (ht : ∀ t ∈ us, t < g.size) (h : eval S g fuel us feeds env w = some (.ok res))
    (hupd : ∀ u ∈ us, ∃ o pv svs gr, IsUpdate g o pv svs u gr)
    (hpure : ∀ u ∈ us, ∀ a n, TransGen (Uses g) u a → g.nodes[a]? = some n → Computes S n.op (f n.op))
    (hro : ∀ u ∈ us, ∀ a vid, TransGen (Uses g) u a → ¬ MayWrite g a vid)
    (hind : ∀ u ∈ us, ∀ u' ∈ us, ∀ a vid, MayWrite g u vid → TransGen (Uses g) u' a → ReadsVar g a vid → TransGen (Uses g) u a)
    (hvar : ∀ u ∈ us, ∀ u' ∈ us, ∀ o pv svs gr m vid, IsUpdate g o pv svs u gr → g.nodes[gr.id]? = some m → m.variableId = some vid →
      u' ≠ u → ¬ MayWrite g u' vid)
    (u : Nat) (hu : u ∈ us) (o : Op) (pv : Nat) (svs : List Nat) (gr : Incoming) (hiu : IsUpdate g o pv svs u gr) (x : V)
    (hx : InputRead S g feeds env w res.log u gr x) : InputMeans f S.shapeOf g feeds env gr x := by
  have hw := hg.wf
  obtain ⟨l1, l2, l3, final, l4, _, _⟩ := eval_log hw ht h
  have hbelow : ∀ a, Needed g us a → a ∈ us ∨ ∃ u' ∈ us, TransGen (Uses g) u' a := by
    rintro a ⟨t, h1, _, h2⟩
    rcases ReflTransGen.cases_head h2 with rfl | ⟨c, h3, h4⟩
    · exact .inl h1
    · exact .inr ⟨t, h1, TransGen.head' h3 h4⟩
  have hmay : ∀ u ∈ us, ∃ vid, MayWrite g u vid := by
    intro u hu
    obtain ⟨o, pv, svs, gr, h1⟩ := hupd u hu
    exact ⟨pv, (isUpdate_mayWrite h1).2 (by simp)⟩
  have hnot : ∀ u' ∈ us, ∀ b, TransGen (Uses g) u' b → b ∉ us := by
    intro u' hu' b hb hbu
    obtain ⟨vid, hm⟩ := hmay b hbu
    exact hro u' hu' b vid hb hm
  have huse : ∀ a b, Needed g us a → Uses g a b → b ∉ us := by
    intro a b ha hab
    rcases hbelow a ha with h1 | ⟨u', h1, h2⟩
    · exact hnot a h1 b (.single hab)
    · exact hnot u' h1 b (h2.tail hab)
  obtain ⟨pre, post, s1, cv, kind, e, i1, i2, i3⟩ := hx
  rw [e] at l1 l3 l4
  have hl : ∀ y ∈ pre, Needed g us y.1 := by
    intro y hy
    refine (l2 y.1).1 ?_
    rw [e]
    exact List.mem_map.2 ⟨y, by simp [hy], rfl⟩
  rw [List.map_append] at l1 l3
  have hsnap := execList_snapshot (f := f) (N := Needed g us) (Wr := fun a => a ∈ us)
    (fun a n ha hna hn => by
      rcases hbelow a ha with h1 | ⟨u', h1, h2⟩
      · exact absurd h1 hna
      · exact hpure u' h1 a n h2 hn) huse
    (fun a v vid ha hna hr hv hm => by
      rcases hbelow a ha with h1 | ⟨u', h1, h2⟩
      · exact absurd h1 hna
      · rcases hbelow v hv with h3 | ⟨u'', h3, h4⟩
        · exact hind v h3 u' h1 a vid hm h2 hr
        · exact absurd hm (hro u'' h3 v vid h4)) i1 hl (List.nodup_append.1 l1).1 (inDependencyOrder_prefix l3)
  have hiu' := hiu
  obtain ⟨n, p, ss, hn, _, hin, _⟩ := hiu'
  refine ⟨cv, kind, fun ho => ?_, inputIs_congr (fun m vid hm hv => ?_) i3⟩
  · have hug : Uses g u gr.id := ⟨⟨n, hn, gr, by simp [hin], rfl⟩, ho⟩
    exact hsnap gr.id _ (hnot u hu _ (.single hug)) (i2 _ hug)
  · refine (execList_frame i1 ?_).symm
    intro a ha hm'
    rcases hbelow a (hl _ ha) with h1 | ⟨u', h1, h2⟩
    · refine hvar u hu a h1 o pv svs gr m vid hiu hm hv ?_ hm'
      rintro rfl
      exact (List.nodup_append.1 l1).2.2 a (List.mem_map.2 ⟨_, ha, rfl⟩) a (by simp) rfl
    · exact hro u' h1 a vid h2 hm'

/-- **C45** With a single parameter the claim holds without further hypotheses. -/
theorem C45_single_parameter_partial (O : Ops Op) (S : Sem Op V E W) (g : Graph Op) (fuel : Nat) (u : Nat) (feeds : List (Feed V))
    (env : List V) (w : W) (res : EvalResult V E W) (f : Op → List (OpInput V) → Option (Except E (List V)))
    (hg : Reachable O g) (ht : u < g.size) (h : eval S g fuel [u] feeds env w = some (.ok res))
    (hpure : ∀ a n, TransGen (Uses g) u a → g.nodes[a]? = some n → Computes S n.op (f n.op))
    (hro : ∀ a vid, TransGen (Uses g) u a → ¬ MayWrite g a vid)
    (o : Op) (pv : Nat) (svs : List Nat) (gr : Incoming) (hiu : IsUpdate g o pv svs u gr) (x : V)
    (hx : InputRead S g feeds env w res.log u gr x) : InputMeans f S.shapeOf g feeds env gr x := by
  refine C45_gradients_before_step_partial O S g fuel [u] feeds env w res f hg (by simpa using ht) h ?_ ?_ ?_ ?_ ?_ u (by simp) o pv svs gr hiu x hx
  · intro u' hu'; simp at hu'; subst hu'; exact ⟨o, pv, svs, gr, hiu⟩
  · intro u' hu'; simp at hu'; subst hu'; exact hpure
  · intro u' hu'; simp at hu'; subst hu'; exact hro
  · intro v hv v' hv' a vid _ h2 _
    simp at hv hv'; subst hv; subst hv'; exact h2
  · intro v hv v' hv' o pv svs gr m vid _ _ _ hne
    simp at hv hv'; subst hv; subst hv'; exact absurd rfl hne

/-- **C45** For SGD: under the hypotheses of `C45_gradients_before_step_partial` the new parameter is `p - α g` with the old parameter `p`
and the gradient `g` at the variable values before the run. -/
theorem C45_sgd_step_partial [Field R] (O : Ops Op) (S : Sem Op (Arr R) E W) (o : Op) (alpha : R)
    (hS : ∀ w xs, S.compute o w xs = mutOutcome (sgdWrites alpha xs) w) (g : Graph Op) (fuel : Nat) (us : List Nat)
    (feeds : List (Feed (Arr R))) (env env' : List (Arr R)) (w : W) (f : Op → List (OpInput (Arr R)) → Option (Except E (List (Arr R))))
    (hg : Reachable O g) (ht : ∀ t ∈ us, t < g.size) (hrun : runUpdates S g fuel us feeds env w = some (.ok env'))
    (hupd : ∀ u ∈ us, ∃ pv gr, UpdatesOnce S o g us pv [] u gr)
    (hpure : ∀ u ∈ us, ∀ a n, TransGen (Uses g) u a → g.nodes[a]? = some n → Computes S n.op (f n.op))
    (hro : ∀ u ∈ us, ∀ a vid, TransGen (Uses g) u a → ¬ MayWrite g a vid)
    (hind : ∀ u ∈ us, ∀ u' ∈ us, ∀ a vid, MayWrite g u vid → TransGen (Uses g) u' a → ReadsVar g a vid → TransGen (Uses g) u a)
    (hvar : ∀ u ∈ us, ∀ u' ∈ us, ∀ o pv svs gr m vid, IsUpdate g o pv svs u gr → g.nodes[gr.id]? = some m → m.variableId = some vid →
      u' ≠ u → ¬ MayWrite g u' vid)
    (u pv gr : Nat) (hu : u ∈ us) (hu1 : UpdatesOnce S o g us pv [] u gr) (p : Arr R) (hp : env[pv]? = some p) :
    ∃ x p', InputMeans f S.shapeOf g feeds env { id := gr } x ∧ env'[pv]? = some p' ∧ p'.shape = p.shape ∧
      BroadcastsTo x.shape p.shape ∧
      ∀ idx k, InB idx p.shape → ReadsAt x.shape idx k → p'.get idx = p.get idx - alpha * x.get k := by
  obtain ⟨res, x, h1, h2, h3⟩ := C44_update_is_step O S o g us pv [] u gr hg ht hu1 fuel feeds env [] env env' w .start hrun
  obtain ⟨p', h4, h5, h6, h7⟩ := C44_sgd O S o alpha hS pv env env' ([] ++ [x]) p hp h3
  refine ⟨x, p', ?_, h4, h5, h6 x (by simp), fun idx k hi hk => ?_⟩
  · refine C45_gradients_before_step_partial O S g fuel us feeds env w res f hg ht h1 ?_ hpure hro hind hvar u hu o pv [] _ hu1.2.1 x h2
    intro u hu
    obtain ⟨pv, gr, h⟩ := hupd u hu
    exact ⟨o, pv, [], _, h.2.1⟩
  · have := h7 idx (fun _ => x.get k) hi (by
      intro j a hj
      match j, hj with
      | 0, hj => simp at hj; subst hj; exact ⟨k, hk, rfl⟩
      | _ + 1, hj => simp at hj)
    simpa [sgdParam] using this

/-- Ops of the examples: multiplication of scalars, the constant 1, SGD with learning rate 1, assignment, and `add_n`. -/
inductive UpdOp where
  | ctrl | var | ph | const | one | mul | sgd | assign | addN
  deriving DecidableEq

def updCompute : UpdOp → Unit → List (OpInput (Arr ℚ)) → Outcome (Arr ℚ) Unit Unit
  | .one, w, _ => .done w [] [ofFn [] (fun _ => 1)] (.ok ())
  | .mul, w, [x, y] => .done w [] [ofFn [] (fun _ => x.val.get [] * y.val.get [])] (.ok ())
  | .sgd, w, xs => mutOutcome (sgdWrites 1 xs) w
  | .assign, w, xs => mutOutcome (assignWrites xs) w
  | .addN, w, xs => match Nd.addN (xs.map OpInput.val) with
    | .ok y => .done w [] [y] (.ok ())
    | .error _ => .panic
  | _, _, _ => .panic

def updSem : Sem UpdOp (Arr ℚ) Unit Unit := ⟨updCompute, Arr.shape, false⟩
def updOps : Ops UpdOp := ⟨.ctrl, .var, .ph, fun _ => .const⟩

/-- `w1`, `w2`, `1`, and the gradients `1 * w2` and `1 * w1` of `y = w1 * w2`. -/
def updCmds : List (Cmd UpdOp) :=
  [.var 0, .var 1, .build {} .one, .build { inNodes := [⟨2, false, 0⟩, ⟨1, false, 0⟩] } .mul,
   .build { inNodes := [⟨2, false, 0⟩, ⟨0, false, 0⟩] } .mul]

def updNum (x : ℚ) : Arr ℚ := ofFn [] (fun _ => x)

/-- `w1`, `w2` and the gradients `w1 * w1`, `w2 * w2` (of `(w1³ + w2³) / 3`), which satisfy the hypotheses of
`C45_gradients_before_step_partial`. -/
def updCmds2 : List (Cmd UpdOp) :=
  [.var 0, .var 1, .build { inNodes := [⟨0, false, 0⟩, ⟨0, false, 0⟩] } .mul, .build { inNodes := [⟨1, false, 0⟩, ⟨1, false, 0⟩] } .mul]

def updMeaning : UpdOp → List (OpInput (Arr ℚ)) → Option (Except Unit (List (Arr ℚ)))
  | .mul, [x, y] => some (.ok [ofFn [] (fun _ => x.val.get [] * y.val.get [])])
  | _, _ => none

theorem upd2_graph {g g' : Graph UpdOp} {ts us : List Nat} (h : (Graph.empty : Graph UpdOp).execAll updOps updCmds2 = .ok (g, ts))
    (h' : sgdLoop .sgd g [(0, 2), (1, 3)] = .ok (g', us)) :
    us = [4, 5] ∧ (∀ a b, Uses g' a b → (a = 4 ∧ b = 2) ∨ (a = 5 ∧ b = 3)) ∧
    (∀ a vid, MayWrite g' a vid → (a = 4 ∧ vid = 0) ∨ (a = 5 ∧ vid = 1)) ∧
    (∀ a vid, ReadsVar g' a vid → (a = 2 ∧ vid = 0) ∨ (a = 3 ∧ vid = 1) ∨ a = 4 ∨ a = 5) ∧
    (∀ a n, a = 2 ∨ a = 3 → g'.nodes[a]? = some n → n.op = .mul) ∧
    (∀ m vid, g'.nodes[2]? = some m ∨ g'.nodes[3]? = some m → m.variableId ≠ some vid) ∧
    (∀ n, g'.nodes[4]? = some n → n.incoming[1]? = some { id := 2 }) ∧ (∀ n, g'.nodes[5]? = some n → n.incoming[1]? = some { id := 3 }) := by
  cases h
  cases h'
  refine ⟨rfl, ?_, ?_, ?_, ?_, ?_, ?_, ?_⟩
  · rintro a b ⟨⟨n, h1, i, h2, rfl⟩, m, h3, h4, h5⟩
    match a, h1 with
    | 0, h1 => cases h1; cases h2
    | 1, h1 => cases h1; cases h2
    | 2, h1 => cases h1; simp [Builder.toNode] at h2; subst h2; cases h3; cases h5
    | 3, h1 => cases h1; simp [Builder.toNode] at h2; subst h2; cases h3; cases h5
    | 4, h1 => cases h1; simp [Builder.toNode] at h2; rcases h2 with rfl | rfl; · cases h3; cases h5
               · simp
    | 5, h1 => cases h1; simp [Builder.toNode] at h2; rcases h2 with rfl | rfl; · cases h3; cases h5
               · simp
    | _ + 6, h1 => cases h1
  · rintro a vid ⟨n, h1, i, h2, h3, m, h4, h5, h6⟩
    match a, h1 with
    | 0, h1 => cases h1; cases h2
    | 1, h1 => cases h1; cases h2
    | 2, h1 => cases h1; simp [Builder.toNode] at h2; subst h2; cases h3
    | 3, h1 => cases h1; simp [Builder.toNode] at h2; subst h2; cases h3
    | 4, h1 => cases h1; simp [Builder.toNode] at h2; rcases h2 with rfl | rfl
               · cases h4; cases h6; simp
               · cases h3
    | 5, h1 => cases h1; simp [Builder.toNode] at h2; rcases h2 with rfl | rfl
               · cases h4; cases h6; simp
               · cases h3
    | _ + 6, h1 => cases h1
  · rintro a vid ⟨n, h1, i, h2, m, h4, h6⟩
    match a, h1 with
    | 0, h1 => cases h1; cases h2
    | 1, h1 => cases h1; cases h2
    | 2, h1 => cases h1; simp [Builder.toNode] at h2; subst h2; cases h4; cases h6; simp
    | 3, h1 => cases h1; simp [Builder.toNode] at h2; subst h2; cases h4; cases h6; simp
    | 4, h1 => simp
    | 5, h1 => simp
    | _ + 6, h1 => cases h1
  · rintro a n (rfl | rfl) h <;> cases h <;> rfl
  · rintro m vid (h | h) <;> cases h <;> simp [Builder.toNode]
  · rintro n h; cases h; rfl
  · rintro n h; cases h; rfl

theorem upd2_below {g' : Graph UpdOp} (h : ∀ a b, Uses g' a b → (a = 4 ∧ b = 2) ∨ (a = 5 ∧ b = 3)) {a b : Nat}
    (hb : TransGen (Uses g') a b) : (a = 4 ∧ b = 2) ∨ (a = 5 ∧ b = 3) := by
  induction hb with
  | single h1 => exact h _ _ h1
  | tail _ h1 ih => have := h _ _ h1; omega

/-- All hypotheses of `C45_gradients_before_step_partial` hold here (and those of `C45_single_parameter_partial`, which are weaker). -/
example : ∃ g g' ts us res x, (Graph.empty : Graph UpdOp).execAll updOps updCmds2 = .ok (g, ts) ∧
    sgdLoop .sgd g [(0, 2), (1, 3)] = .ok (g', us) ∧ eval updSem g' 100 us [] [updNum 2, updNum 3] () = some (.ok res) ∧
    InputRead updSem g' [] [updNum 2, updNum 3] () res.log 4 { id := 2 } x ∧
    InputMeans updMeaning updSem.shapeOf g' [] [updNum 2, updNum 3] { id := 2 } x := by
  obtain ⟨g, g', ts, us, h, h', env', hr⟩ : ∃ g g' ts us, (Graph.empty : Graph UpdOp).execAll updOps updCmds2 = .ok (g, ts) ∧
    sgdLoop .sgd g [(0, 2), (1, 3)] = .ok (g', us) ∧
    ∃ env', runUpdates updSem g' 100 us [] [updNum 2, updNum 3] () = some (.ok env') := ⟨_, _, _, _, rfl, rfl, _, rfl⟩
  obtain ⟨rfl, a1, a2, a3, a4, a5, a6, a7⟩ := upd2_graph h h'
  have hg : Reachable updOps g := Reachable.init.all h
  obtain ⟨v0, v1, hsz, hnm⟩ : VarTensor g 0 0 ∧ VarTensor g 1 1 ∧ g.size = 4 ∧ ∀ n ∈ g.nodes, ∀ i ∈ n.incoming, i.allowMut = false := by
    cases h; exact ⟨⟨_, rfl, rfl⟩, ⟨_, rfl, rfl⟩, rfl, by decide⟩
  obtain ⟨b1, b2, _, b4, _⟩ := C44_update_sgd updOps updSem .sgd g g' hg [(0, 2), (1, 3)] [4, 5]
    (by simp [hsz]; exact ⟨⟨0, v0⟩, ⟨1, v1⟩⟩)
    (fun a vid _ ⟨n, c1, i, c2, c3, _⟩ => by rw [hnm n (List.mem_of_getElem? c1) i c2] at c3; cases c3) h' (by simp)
  obtain ⟨w0, d1, d2, d3, d4⟩ := b4 0 0 2 4 rfl rfl
  obtain ⟨w1, e1, e2, e3, _⟩ := b4 1 1 3 5 rfl rfl
  obtain ⟨res, x, f1, _, f3, _⟩ := d4 100 [] _ () _ hr
  refine ⟨g, g', ts, _, res, x, h, h', f1, f3, ?_⟩
  refine C45_gradients_before_step_partial updOps updSem g' 100 [4, 5] [] _ () res updMeaning b1 b2 f1 ?_ ?_ ?_ ?_ ?_ 4 (by simp) .sgd w0 [] _ d3 x f3
  · intro u hu
    simp at hu
    rcases hu with rfl | rfl
    · exact ⟨_, _, _, _, d3⟩
    · exact ⟨_, _, _, _, e3⟩
  · intro u _ a n hb hn
    rw [a4 a n (by have := upd2_below a1 hb; omega) hn]
    intro w xs
    match xs with
    | [] => rfl
    | [_] => rfl
    | [_, _] => rfl
    | _ :: _ :: _ :: _ => rfl
  · intro u _ a vid hb hm
    have := upd2_below a1 hb
    have := a2 _ _ hm
    omega
  · intro u _ u' _ a vid hm hb hr
    have c1 := a2 _ _ hm
    have c2 := upd2_below a1 hb
    have c3 := a3 _ _ hr
    have : u = u' := by omega
    rw [this]; exact hb
  · intro u hu u' _ o pv svs gr m vid hiu hm hv _ _
    obtain ⟨n, p, ss, i1, _, i2, _⟩ := hiu
    simp at hu
    rcases hu with rfl | rfl
    · have := a6 n i1; rw [i2] at this; simp at this; subst this; exact a5 m vid (.inl hm) hv
    · have := a7 n i1; rw [i2] at this; simp at this; subst this; exact a5 m vid (.inr hm) hv

/-- **C45** violated: `y = w1 * w2` with `w1 = 2`, `w2 = 3` and SGD with learning rate 1. The gradients before the step are 3 and 2, so the
step should give `w1 = -1`, `w2 = 1`. But the update of `w2` runs first, the gradient of `w1` is then evaluated with the *new* `w2`, and
`w1` becomes `2 - 1 = 1`. -/
theorem C45_update_violated :
    ∃ g g' ts us, (Graph.empty : Graph UpdOp).execAll updOps updCmds = .ok (g, ts) ∧
      sgdLoop .sgd g [(0, 3), (1, 4)] = .ok (g', us) ∧
      (∃ res, eval updSem g 100 [3, 4] [] [updNum 2, updNum 3] () = some (.ok res) ∧
        res.results.map (fun r => r.toOption.map (fun a => a.get [])) = [some 3, some 2]) ∧
      ∃ env', runUpdates updSem g' 100 us [] [updNum 2, updNum 3] () = some (.ok env') ∧
        env'.map (fun a => a.get []) = [1, 1] ∧ env'.map (fun a => a.get []) ≠ [2 - 3, 3 - 2] := by
  refine ⟨_, _, _, _, rfl, rfl, ⟨_, rfl, ?_⟩, _, rfl, ?_, ?_⟩
  · norm_num [Except.toOption, ofFn, updNum]
  · show [(2 : ℚ) - 1 * (1 * (3 - 1 * (1 * 2))), 3 - 1 * (1 * 2)] = [1, 1]
    norm_num
  · show [(2 : ℚ) - 1 * (1 * (3 - 1 * (1 * 2))), 3 - 1 * (1 * 2)] ≠ [2 - 3, 3 - 2]
    norm_num

/-! ## C47 Assignment -/

/-- **C47** When `assign(v, y)` is called in an evaluation, the variable gets the value which `y` has then, broadcast to the shape of the
variable; no other variable changes. Ops of the same evaluation that read the variable later (before another op writes to it) see the new
array, and so do later evaluations. -/
theorem C47_assign (O : Ops Op) (S : Sem Op (Arr R) E W) [Zero R] (o : Op) (hS : ∀ w xs, S.compute o w xs = mutOutcome (assignWrites xs) w)
    (g : Graph Op) (fuel : Nat) (targets : List Nat) (feeds : List (Feed (Arr R))) (env : List (Arr R)) (w : W)
    (res : EvalResult (Arr R) E W) (hg : Reachable O g) (ht : ∀ t ∈ targets, t < g.size)
    (h : eval S g fuel targets feeds env w = some (.ok res)) (u vid : Nat) (y : Incoming) (hu : IsUpdate g o vid [] u y)
    (pre post : List (Nat × Bool)) (hlog : res.log = pre ++ (u, true) :: post) :
    ∃ s1 s2 old x new, ExecList S g feeds (.start env w) pre s1 ∧ ExecOne S g feeds s1 (u, true) s2 ∧
      s1.env[vid]? = some old ∧ InputRead S g feeds env w res.log u y x ∧ s2.env[vid]? = some new ∧
      -- the value
      new.shape = old.shape ∧ BroadcastsTo x.shape old.shape ∧
      (∀ idx, InB idx old.shape → ∃ k, ReadsAt x.shape idx k ∧ new.get idx = x.get k) ∧
      -- no other variable
      (∀ vid', vid' ≠ vid → s2.env[vid']? = s1.env[vid']?) ∧
      -- later reads
      (∀ mid b post' i z n, post = mid ++ (b, true) :: post' → (∀ a, (a, true) ∈ mid → ¬ MayWrite g a vid) →
        g.nodes[i.id]? = some n → n.placeholderName = none → n.variableId = some vid →
        InputRead S g feeds env w res.log b i z → z = new) ∧
      ((∀ a, (a, true) ∈ post → ¬ MayWrite g a vid) → res.env[vid]? = some new) := by
  obtain ⟨l1, _, _, final, l3, l4, _⟩ := eval_log hg.wf ht h
  rw [hlog] at l1 l3
  obtain ⟨s1, h1, h2⟩ := execList_append l3
  obtain ⟨s2, h3, h4⟩ := execList_cons h2
  have h3' := h3
  obtain ⟨n, p, ss, hn, hop, hin, hp, hya, hss⟩ := id hu
  cases hss
  cases h3' with
  | @run _ n' cv xs w1 ws ys st r env1 hn' ho hcv hins hc hr he =>
    rw [hn] at hn'; cases hn'
    rw [hop, hS] at hc
    obtain ⟨hws, -⟩ := mutOutcome_done hc
    simp only [assignWrites, bind_ok] at hws
    obtain ⟨a, ha, b, hb, new, hz, hws⟩ := hws
    cases hws
    rw [hin] at hins
    cases hins with
    | @cons _ _ x0 _ q1 qs =>
      cases qs with
      | @cons _ _ x1 _ q2 qs =>
        cases qs
        have ea := inputMut_ok ha
        obtain ⟨kd, eb, _⟩ := input_ok hb
        simp at ea eb
        subst ea
        subst eb
        obtain ⟨z1, z2, z3⟩ := zipMut_ok hz
        have hold := (inputIs_mutVar hp q1).1
        have hvl : vid < s1.env.length := (List.getElem?_eq_some_iff.1 hold).1
        have hwv : WritesVar g n 0 vid := writesVar_iff.2 ⟨p, by simp [hin], hp⟩
        have hnew : env1[vid]? = some new := by
          rcases he.2 vid hvl with ⟨pre', k, v, post', e1, _, _, e4⟩ | ⟨e1, _⟩
          · have : (k, v) ∈ [(0, new)] := by rw [e1]; simp
            simp at this
            rw [this.2] at e4; exact e4
          · exact absurd hwv (e1 (0, new) (by simp))
        refine ⟨s1, _, a, b, new, h1, h3, hold, ?_, hnew, z2, z1, ?_, ?_, ?_, ?_⟩
        · rw [hlog]; exact ⟨pre, post, s1, cv, kd, rfl, h1, hcv, q2⟩
        · intro idx hi
          exact ⟨_, readsAt_bIdx z1 hi, z3 idx⟩
        · intro vid' hne
          refine envAfter_frame hn he fun hm => hne ?_
          have := (isUpdate_mayWrite hu).1 hm
          simpa using this
        · intro mid c post' i z nv hpost hno hnv hpv hvv hread
          subst hpost
          rw [hlog, show pre ++ (u, true) :: (mid ++ (c, true) :: post') = (pre ++ (u, true) :: mid) ++ (c, true) :: post' by simp] at hread
          rw [show pre ++ (u, true) :: (mid ++ (c, true) :: post') = (pre ++ (u, true) :: mid) ++ (c, true) :: post' by simp] at l1
          obtain ⟨t1, cv', kind, r1, _, r3⟩ := inputRead_split l1 hread
          obtain ⟨s1', r4, r5⟩ := execList_append r1
          have := execList_det h1 r4
          subst this
          obtain ⟨s2', r6, r7⟩ := execList_cons r5
          have hdet := (execOne_det h3 r6).2.1
          have hfr := execList_frame r7 hno
          rw [← hdet] at hfr
          simp only [hnew] at hfr
          cases r3 with
          | placeholder a1 a2 => obtain ⟨_, _, a3, _⟩ := a2; rw [hnv] at a1; cases a1; rw [hpv] at a3; cases a3
          | variable_ a1 a2 a3 a4 =>
            rw [hnv] at a1; cases a1; rw [hvv] at a3; cases a3
            rw [hfr] at a4; exact (Option.some.inj a4).symm
          | result a1 => obtain ⟨m, a2, _, a3⟩ := a1; rw [hnv] at a2; cases a2; rw [hvv] at a3; cases a3
        · intro hno
          rw [← l4, execList_frame h4 hno]
          exact hnew

/-- **C47** If `assign` is one of the targets and the results are arrays (no errors), its op was called, exactly once: `C47_assign` applies. -/
theorem C47_assign_called (O : Ops Op) (S : Sem Op V E W) (o : Op) (g : Graph Op) (fuel : Nat) (targets : List Nat)
    (feeds : List (Feed V)) (env : List V) (w : W) (res : EvalResult V E W) (hg : Reachable O g) (ht : ∀ t ∈ targets, t < g.size)
    (h : eval S g fuel targets feeds env w = some (.ok res)) (hok : ∀ r ∈ res.results, ∃ v, r = .ok v) (u vid : Nat) (y : Incoming)
    (hu : IsUpdate g o vid [] u y) (hut : u ∈ targets) :
    ∃ pre post, res.log = pre ++ (u, true) :: post ∧ u ∉ pre.map Prod.fst ∧ u ∉ post.map Prod.fst := by
  obtain ⟨pre, post, e⟩ := List.append_of_mem (target_called hg.wf ht h hok hut (isUpdate_isOp hg.wf hu))
  obtain ⟨l1, _⟩ := eval_log hg.wf ht h
  rw [e, List.map_append, List.map_cons, List.nodup_append] at l1
  refine ⟨pre, post, e, fun hp => l1.2.2 u hp u (by simp) rfl, (List.nodup_cons.1 l1.2.1).1⟩

/-- `w1`, the constant 1, `assign(w1, 1)` and `w1 * w1`, where the product runs after the assignment (control dependency would panic, see
`C13_assign_violated`; here the targets are in the order that makes the assignment run first). -/
def updCmds3 : List (Cmd UpdOp) :=
  [.var 0, .build {} .one, .build { inNodes := [⟨0, true, 0⟩, ⟨1, false, 0⟩] } .assign,
   .build { inNodes := [⟨0, false, 0⟩, ⟨0, false, 0⟩] } .mul]

example : ∃ g ts res, (Graph.empty : Graph UpdOp).execAll updOps updCmds3 = .ok (g, ts) ∧ Reachable updOps g ∧
    eval updSem g 100 [3, 2] [] [updNum 5] () = some (.ok res) ∧ IsUpdate g .assign 0 [] 2 { id := 1 } ∧
    res.log = [(1, true)] ++ (2, true) :: [(3, true)] ∧ ¬ MayWrite g 3 0 ∧
    res.env.map (fun a => a.get []) = [1] ∧ res.results.map (fun r => r.toOption.map (fun a => a.get [])) = [some 1, some 0] := by
  obtain ⟨g, ts, h, res, he, hu, hl, hm, h1, h2⟩ : ∃ g ts, (Graph.empty : Graph UpdOp).execAll updOps updCmds3 = .ok (g, ts) ∧
    ∃ res, eval updSem g 100 [3, 2] [] [updNum 5] () = some (.ok res) ∧ IsUpdate g .assign 0 [] 2 { id := 1 } ∧
    res.log = [(1, true)] ++ (2, true) :: [(3, true)] ∧ ¬ MayWrite g 3 0 ∧
    res.env.map (fun a => a.get []) = [1] ∧ res.results.map (fun r => r.toOption.map (fun a => a.get [])) = [some 1, some 0] := by
    refine ⟨_, _, rfl, _, rfl, ⟨_, { id := 0, allowMut := true }, [], rfl, rfl, rfl, ⟨rfl, _, rfl, rfl, rfl⟩, rfl, .nil⟩, rfl, ?_, rfl, ?_⟩
    · rintro ⟨n, h1, i, h2, h3, _⟩
      cases h1
      simp [Builder.toNode] at h2
      subst h2; cases h3
    · show [some ((1 : ℚ) * 1), some 0] = [some 1, some 0]
      norm_num
  exact ⟨g, ts, res, h, Reachable.init.all h, he, hu, hl, hm, h1, h2⟩

/-- **C47** A call of `assign` does not panic exactly when the value can be broadcast to the shape of the variable. -/
theorem C47_assign_succeeds (x y : OpInput (Arr R)) (hx : x.kind = .rdWr) (hy : y.kind ≠ .rdWr) :
    (∃ ws, assignWrites [x, y] = .ok ws) ↔ BroadcastsTo y.val.shape x.val.shape := by
  have h1 : inputMut [x, y] 0 = .ok x.val := by simp [inputMut, hx]
  have h2 : Opt.input [x, y] 1 = .ok y.val := by simp [Opt.input, hy]
  constructor
  · rintro ⟨ws, h⟩
    simp only [assignWrites, bind_ok, h1, h2, Except.ok.injEq] at h
    obtain ⟨a, rfl, b, rfl, c, h, _⟩ := h
    exact (zipMut_ok h).1
  · intro h
    obtain ⟨r, hr⟩ := zipMut_some (fun _ b => b) h
    exact ⟨[(0, r)], by simp only [assignWrites, bind_ok, h1, h2]; exact ⟨_, rfl, _, rfl, r, hr, rfl⟩⟩

example : ∃ x y : OpInput (Arr ℚ), x.kind = .rdWr ∧ y.kind ≠ .rdWr ∧ BroadcastsTo y.val.shape x.val.shape :=
  ⟨⟨.rdWr, ofFn [2, 3] (fun _ => 1)⟩, ⟨.rdOnly, ofFn [3] (fun _ => 2)⟩, rfl, by decide, broadcastsTo_iff.2 (bcastOk_iff.1 (by decide))⟩

end Verif.Props
