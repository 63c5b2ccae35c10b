import Verif.Lemmas.OptimizerTotal
import Verif.Lemmas.ProgramBuilds
import Verif.Lemmas.UpdateStep
import Verif.Model.TrainLoop
import Verif.Props.Optimizers
import Verif.Spec.Training

/-! The optimizers of the training loop: state variables, update tensors, and what the parameters become. -/

namespace Verif.Prog
open Verif Verif.Spec Verif.Gradient Verif.Graph Verif.Eval Verif.Nd Verif.Hint Verif.Opt Verif.OptState Verif.Props

/-- The names of the state variables of a parameter. -/
def stateNames : UOp → Nat → List Str
  | .sgd _, _ => []
  | .momentum _ _, v => singleNames v
  | .adagrad _, v => singleNames v
  | .adam _, v => adamNames v

/-- The state variables of the parameter `v`. -/
def StateOf (u : UOp) (ns : Str) (venv : VarEnv (Arr ℝ)) (v : Nat) (svs : List Nat) : Prop :=
  List.Forall₂ (fun name sv => venv.names.get ⟨ns, name⟩ = some sv) (stateNames u v) svs

theorem stateOf_unique {u : UOp} {ns : Str} {venv : VarEnv (Arr ℝ)} {v : Nat} {svs svs' : List Nat} (h : StateOf u ns venv v svs) (h' : StateOf u ns venv v svs') :
    svs = svs' := by
  unfold StateOf at h h'
  generalize stateNames u v = l at h h'
  induction h generalizing svs' with
  | nil => cases h'; rfl
  | cons a _ ih =>
    cases h' with
    | cons b h' =>
      rw [a] at b
      rw [Option.some.inj b, ih h']

theorem stateOf_found {u : UOp} {ns : Str} {venv : VarEnv (Arr ℝ)} {v : Nat} {svs : List Nat} (h : StateOf u ns venv v svs) :
    ∀ name ∈ stateNames u v, ∃ sv ∈ svs, venv.names.get ⟨ns, name⟩ = some sv := by
  unfold StateOf at h
  generalize stateNames u v = l at h
  induction h with
  | nil => simp
  | @cons n s _ _ a _ ih =>
    intro name hn
    rcases List.mem_cons.1 hn with rfl | hn
    · exact ⟨s, by simp, a⟩
    · obtain ⟨sv, h1, h2⟩ := ih name hn
      exact ⟨sv, by simp [h1], h2⟩

theorem stateOf_name {u : UOp} {ns : Str} {venv : VarEnv (Arr ℝ)} {v : Nat} {svs : List Nat} (h : StateOf u ns venv v svs) :
    ∀ sv ∈ svs, ∃ name ∈ stateNames u v, venv.names.get ⟨ns, name⟩ = some sv := by
  unfold StateOf at h
  generalize stateNames u v = l at h
  induction h with
  | nil => simp
  | @cons n s _ _ a _ ih =>
    intro sv hn
    rcases List.mem_cons.1 hn with rfl | hn
    · exact ⟨n, by simp, a⟩
    · obtain ⟨name, h1, h2⟩ := ih sv hn
      exact ⟨name, by simp [h1], h2⟩

theorem stateNames_separate (u : UOp) (v v' : Nat) (s : Str) (h : s ∈ stateNames u v) (h' : s ∈ stateNames u v') : v = v' := by
  cases u with
  | sgd _ => cases h
  | momentum _ _ => exact singleNames_separate v v' s h h'
  | adagrad _ => exact singleNames_separate v v' s h h'
  | adam _ => exact adamNames_separate v v' s h h'

/-- `compute_updates` looks only at the names of the variables. -/
theorem stateTensors_names {Op A : Type} (varOp : Op) (ns : Str) {e e' : VarEnv A} (h : e.names = e'.names) : ∀ (names : List Str) (g : Graph Op),
    stateTensors varOp e ns g names = stateTensors varOp e' ns g names
  | [], _ => rfl
  | name :: names, g => by
    have h1 : g.variableByName varOp e ns name = g.variableByName varOp e' ns name := by unfold variableByName; rw [h]
    simp only [stateTensors, h1, stateTensors_names varOp ns h names]

theorem updatesLoop_names {Op A : Type} (varOp o : Op) (ns : Str) (stateNames : Nat → List Str) {e e' : VarEnv A} (h : e.names = e'.names) :
    ∀ (pgs : List (Nat × Nat)) (g : Graph Op), updatesLoop varOp o e ns stateNames g pgs = updatesLoop varOp o e' ns stateNames g pgs
  | [], _ => rfl
  | (p, gr) :: pgs, g => by
    simp only [updatesLoop, stateTensors_names varOp ns h, updatesLoop_names varOp o ns stateNames h pgs]

theorem updates_names (u : UOp) (ns : Str) {e e' : VarEnv (Arr ℝ)} (h : e.names = e'.names) (g : Graph POp) (pgs : List (Nat × Nat)) :
    u.updates ns e g pgs = u.updates ns e' g pgs := by
  cases u with
  | sgd _ => rfl
  | momentum _ _ => exact updatesLoop_names _ _ _ _ h _ _
  | adagrad _ => exact updatesLoop_names _ _ _ _ h _ _
  | adam _ => exact updatesLoop_names _ _ _ _ h _ _

/-- `compute_updates` returns the update tensors. -/
theorem updates_sized (u : UOp) (ns : Str) (venv : VarEnv (Arr ℝ)) {g : Graph POp} (hw : WF g) {pgs : List (Nat × Nat)}
    (h : ∀ pg ∈ pgs, (∃ vid svs, VarTensor g pg.1 vid ∧ StateOf u ns venv vid svs) ∧ pg.2 < g.nodes.length)
    (hs : g.nodes.length + 4 * pgs.length ≤ numNodesCritical) :
    ∃ g' us, u.updates ns venv g pgs = .ok (g', us) ∧ UpdatesBuilt hintOps.toOps (.upd u) (StateOf u ns venv) g g' pgs us ∧ g'.nodes.length ≤ g.nodes.length + 4 * pgs.length := by
  have hlt : ∀ pg ∈ pgs, pg.1 < g.nodes.length := fun pg hpg => by
    obtain ⟨⟨v, _, ⟨n, hn, _⟩, _⟩, _⟩ := h pg hpg
    exact (List.getElem?_eq_some_iff.1 hn).1
  have hloop : ∀ names : Nat → List Str, names = stateNames u → (∀ v, (names v).length ≤ 3) →
      ∃ g' us, updatesLoop .var (.upd u) venv ns names g pgs = .ok (g', us) ∧ UpdatesBuilt hintOps.toOps (.upd u) (StateOf u ns venv) g g' pgs us ∧
        g'.nodes.length ≤ g.nodes.length + 4 * pgs.length := by
    rintro names rfl hlen
    obtain ⟨r, h1, hsz⟩ := updatesLoop_total (O := hintOps.toOps) (.upd u) venv ns (stateNames u) hlen pgs g hw (fun pg hpg => by
      obtain ⟨⟨v, svs, a, b⟩, c⟩ := h pg hpg
      exact ⟨⟨v, a, fun name hn => let ⟨sv, _, h⟩ := stateOf_found b name hn; ⟨sv, h⟩⟩, c⟩) hs
    obtain ⟨a1, a2, a3, a4, a5⟩ := updatesLoop_ok (O := hintOps.toOps) (g' := r.1) (us := r.2) hw hlt h1
    exact ⟨r.1, r.2, h1, ⟨a1, a2, a3, a4, a5⟩, hsz⟩
  cases u with
  | sgd alpha =>
    obtain ⟨r, h1, hsz⟩ := sgdLoop_total (.upd (.sgd alpha)) pgs g (fun pg hpg => ⟨hlt pg hpg, (h pg hpg).2⟩) hs
    obtain ⟨a1, a2, a3, a4, a5⟩ := sgdLoop_ok (O := hintOps.toOps) (g' := r.1) (us := r.2) hw (fun pg hpg => by
      obtain ⟨⟨v, _, a, _⟩, _⟩ := h pg hpg
      exact ⟨v, a⟩) h1
    exact ⟨r.1, r.2, h1, ⟨a1, a2, a3, a4, a5.imp fun pg u ⟨v, b1, b2⟩ => ⟨v, [], b1, .nil, b2⟩⟩, hsz⟩
  | momentum lr mu => exact hloop singleNames rfl (fun v => by simp [singleNames])
  | adagrad lr => exact hloop singleNames rfl (fun v => by simp [singleNames])
  | adam c => exact hloop adamNames rfl (fun v => by simp [adamNames])

theorem updates_built (u : UOp) (ns : Str) (venv : VarEnv (Arr ℝ)) {g : Graph POp} (hw : WF g) {pgs : List (Nat × Nat)}
    (h : ∀ pg ∈ pgs, (∃ vid svs, VarTensor g pg.1 vid ∧ StateOf u ns venv vid svs) ∧ pg.2 < g.nodes.length)
    (hs : g.nodes.length + 4 * pgs.length ≤ numNodesCritical) :
    ∃ g' us, u.updates ns venv g pgs = .ok (g', us) ∧ UpdatesBuilt hintOps.toOps (.upd u) (StateOf u ns venv) g g' pgs us :=
  let ⟨g', us, h1, h2, _⟩ := updates_sized u ns venv hw h hs
  ⟨g', us, h1, h2⟩

theorem stepSem_upd (u : UOp) (w : Unit) (xs : List (OpInput (Arr ℝ))) : stepSem.compute (.upd u) w xs = mutOutcome (u.writes xs) w := rfl

theorem stepSem_other {op : POp} (h : ∀ u, op ≠ .upd u) : Computes stepSem op op.sem := by
  have : stepSem.compute op = progSem.compute op := by
    cases op with
    | upd u => exact absurd rfl (h u)
    | _ => rfl
  intro w xs
  show outcomeResult false (stepSem.compute op w xs) = _
  rw [this]
  exact progSem_computes op w xs

theorem zerosOf_zeros : ZerosLike zerosOf := fun _ => ⟨rfl, fun _ => rfl⟩

/-- What an optimizer that was created for the parameter `v` guarantees. -/
structure Ready (u : UOp) (v : Nat) (p0 : Arr ℝ) (env0 : List (Arr ℝ)) (svs : List Nat) : Prop where
  after : ∀ env gs, Training hintOps.toOps stepSem (.upd u) v svs env0 gs env → ∃ p ss, Holds env (v :: svs) (p :: ss) ∧ p.shape = p0.shape ∧
    (∀ G : Arr ℝ, G.shape = p0.shape → ∃ ws, u.writes (⟨.rdWr, p⟩ :: ⟨.nonVariable, G⟩ :: ss.map fun s => ⟨.rdWr, s⟩) = .ok ws) ∧
    ∀ idx g, InB idx p0.shape → GradAt gs idx g → p.get idx = followed u (p0.get idx) g gs.length

theorem ready {u : UOp} {ns : Str} {hist : List (VarAction (Arr ℝ))} {e0 e1 : VarEnv (Arr ℝ)} (H : VarHist hist e0) {vids : List Nat}
    (hnew : u.create ns e0 vids = .ok e1) {v : Nat} (hv : v ∈ vids) {p0 : Arr ℝ} (hp : e0.getById v = some p0) :
    ∃ svs, StateOf u ns e1 v svs ∧ (∀ s ∈ svs, e0.arrays.length ≤ s) ∧ Ready u v p0 e1.arrays svs := by
  cases u with
  | sgd alpha =>
    cases hnew
    refine ⟨[], .nil, by simp, ⟨fun env gs ht => ?_⟩⟩
    obtain ⟨p, h1, h2, _, h3⟩ := C44_sgd _ _ _ alpha (stepSem_upd (.sgd alpha)) v _ env gs p0 hp ht
    refine ⟨p, [], .cons h1 .nil, h2, fun G hG => ?_, h3⟩
    obtain ⟨p', h⟩ := ((C44_step_succeeds p G p p p rfl rfl).1 alpha).2 (by rw [hG, h2]; exact broadcastsTo_self _)
    exact ⟨[(0, p')], by simp [UOp.writes, sgdWrites, inputMut, input, h, bind, Except.bind]⟩
  | momentum lr mu =>
    obtain ⟨s, _, hs, _, _, hle⟩ := singleNew_state hnew hv
    obtain ⟨s', hs', hT⟩ := C44_momentum hintOps.toOps stepSem _ lr mu (stepSem_upd (.momentum lr mu)) zerosOf zerosOf_zeros ns e0 e1 vids hnew v hv p0 hp
    rw [hs] at hs'
    cases hs'
    refine ⟨[s], .cons hs .nil, by simpa using hle, ⟨fun env gs ht => ?_⟩⟩
    obtain ⟨p, m, h1, h2, h3, h4, _, h5⟩ := hT env gs ht
    refine ⟨p, [m], .cons h1 (.cons h2 .nil), h3, fun G hG => ?_, fun idx g hi hg => (h5 idx g hi hg).1⟩
    obtain ⟨r, h⟩ := ((C44_step_succeeds p G m m m (by rw [h3, h4]) (by rw [h3, h4])).2.1 lr mu).2 (by rw [hG, h3]; exact broadcastsTo_self _)
    exact ⟨[(2, r.2), (0, r.1)], by simp [UOp.writes, momentumWrites, inputMut, input, h, bind, Except.bind]⟩
  | adagrad lr =>
    obtain ⟨s, _, hs, _, _, hle⟩ := singleNew_state hnew hv
    obtain ⟨s', hs', hT⟩ := C44_adagrad hintOps.toOps stepSem _ Real.sqrt lr (stepSem_upd (.adagrad lr)) zerosOf zerosOf_zeros ns e0 e1 vids hnew v hv p0 hp
    rw [hs] at hs'
    cases hs'
    refine ⟨[s], .cons hs .nil, by simpa using hle, ⟨fun env gs ht => ?_⟩⟩
    obtain ⟨p, m, h1, h2, h3, h4, _, h5⟩ := hT env gs ht
    refine ⟨p, [m], .cons h1 (.cons h2 .nil), h3, fun G hG => ?_, fun idx g hi hg => (h5 idx g hi hg).1⟩
    obtain ⟨r, h⟩ := ((C44_step_succeeds p G m m m (by rw [h3, h4]) (by rw [h3, h4])).2.2.1 Real.sqrt lr).2 (by rw [hG, h3])
    exact ⟨[(2, r.2), (0, r.1)], by simp [UOp.writes, adagradWrites, inputMut, input, h, bind, Except.bind]⟩
  | adam c =>
    obtain ⟨m, v', t, _, hs, _, _, _, _, hle⟩ := adamNew_state hnew hv
    obtain ⟨m1, v1, t1, hs', hT⟩ := C44_adam hintOps.toOps stepSem _ Real.sqrt (fun x y => x ^ y) c (fun b n => Real.rpow_natCast b n) (stepSem_upd (.adam c)) zerosOf zerosOf_zeros
      oneArr ⟨rfl, rfl⟩ ns hist e0 e1 H vids hnew v hv p0 hp
    rw [hs] at hs'
    cases hs'
    obtain ⟨n1, n2, n3⟩ := adamState_some hs
    refine ⟨[m, v', t], .cons n1 (.cons n2 (.cons n3 .nil)), by simpa using hle, ⟨fun env gs ht => ?_⟩⟩
    obtain ⟨p, am, av, at', h1, h2, h3, h4, h5, h6, h7, h8, _, _, h9⟩ := hT env gs ht
    refine ⟨p, [am, av, at'], .cons h1 (.cons h2 (.cons h3 (.cons h4 .nil))), h5, fun G hG => ?_, fun idx g hi hg => (h9 idx g hi hg).1⟩
    obtain ⟨r, h⟩ := ((C44_step_succeeds p G am av at' (by rw [h5, h6]) (by rw [h5, h7])).2.2.2 Real.sqrt (fun x y => x ^ y) c).2 (by rw [hG, h5]; exact broadcastsTo_self _)
    exact ⟨[(2, r.2.1), (3, r.2.2.1), (0, r.1), (4, r.2.2.2)], by simp [UOp.writes, adamWrites, inputMut, input, h, bind, Except.bind]⟩

theorem create_hist {u : UOp} {ns : Str} {hist : List (VarAction (Arr ℝ))} {e0 e1 : VarEnv (Arr ℝ)} (H : VarHist hist e0) {vids : List Nat}
    (hnew : u.create ns e0 vids = .ok e1) : ∃ h', VarHist h' e1 := by
  cases u with
  | sgd _ => cases hnew; exact ⟨_, H⟩
  | momentum _ _ => exact singleNew_hist H hnew
  | adagrad _ => exact singleNew_hist H hnew
  | adam _ => exact adamNew_hist H hnew

/-- Parameters and state variables of different parameters are different. -/
theorem state_separate {u : UOp} {ns : Str} {hist : List (VarAction (Arr ℝ))} {e : VarEnv (Arr ℝ)} (H : VarHist hist e) {v v' : Nat} {svs svs' : List Nat}
    {m : Nat} (hv : v < m) (hv' : v' < m) (hs : StateOf u ns e v svs) (hs' : StateOf u ns e v' svs') (hm : ∀ s ∈ svs, m ≤ s) (hm' : ∀ s ∈ svs', m ≤ s)
    (hne : v ≠ v') : ∀ x ∈ v :: svs, x ∉ v' :: svs' := by
  intro x hx hx'
  rcases List.mem_cons.1 hx with rfl | hx <;> rcases List.mem_cons.1 hx' with h | hx'
  · exact hne h
  · have := hm' _ hx'; omega
  · subst h; have := hm _ hx; omega
  · obtain ⟨n, h1, h2⟩ := stateOf_name hs x hx
    obtain ⟨n', h1', h2'⟩ := stateOf_name hs' x hx'
    obtain ⟨_, h3⟩ := name_of_id H h2 h2'
    subst h3
    exact hne (stateNames_separate u v v' n h1 h1')

end Verif.Prog
