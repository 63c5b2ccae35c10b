import Verif.Lemmas.ClassifierGradient
import Verif.Lemmas.OptimizerReady

/-! The training loop. -/

namespace Verif.Prog
open Verif Verif.Spec Verif.Gradient Verif.Graph Verif.Eval Verif.Nd Verif.Hint Verif.Opt Verif.OptState Verif.Props

/-- One mini-batch. -/
theorem iteration_step {l : List Stmt} {y : Nat} {xs : List Nat} {u : UOp} {ns : Str} {pick : Graph POp → List Nat → Nat} {fuel : Nat}
    {venv : VarEnv (Arr ℝ)} {feeds : List (Feed (Arr ℝ))} {g : Graph POp} {ids : List Nat} (hl : runProgram l = .ok (g, ids)) {r : GradResult POp}
    (hr : grad gradOps pick fuel g [y] xs = some (.ok r)) (hreach : Reachable hintOps.toOps r.g) (hold : OldRead r.g) {g' : Graph POp} {us : List Nat}
    (hup : u.updates ns venv r.g (xs.zip r.grads) = .ok (g', us))
    (hb : UpdatesBuilt hintOps.toOps (.upd u) (StateOf u ns venv) r.g g' (xs.zip r.grads) us) {G : Nat × Nat → Arr ℝ}
    (hG : GradsOk POp.sem stepSem (.upd u) (StateOf u ns venv) r.g (xs.zip r.grads) feeds venv.arrays G) (hfuel : 2 * (us.length + edgeCount g') ≤ fuel) :
    ∃ arrays, iteration l y xs u ns pick fuel venv feeds = some (.ok { venv with arrays := arrays }) ∧
      ∀ pg ∈ xs.zip r.grads, ∀ v svs, VarTensor r.g pg.1 v → StateOf u ns venv v svs → ∀ env0 gs,
        Training hintOps.toOps stepSem (.upd u) v svs env0 gs venv.arrays → Training hintOps.toOps stepSem (.upd u) v svs env0 (gs ++ [G pg]) arrays := by
  obtain ⟨arrays, h1, h2⟩ := update_step hreach hold.acyclic hb hG hfuel ()
  refine ⟨arrays, ?_, h2⟩
  simp only [iteration, hl, hr, hup, h1]

theorem training_append {l : List Stmt} {y : Nat} {xs : List Nat} {u : UOp} {ns : Str} {pick : Graph POp → List Nat → Nat} {fuel : Nat} :
    ∀ {a b : List (List (Feed (Arr ℝ)))} {e e' : VarEnv (Arr ℝ)}, training l y xs u ns pick fuel e a = some (.ok e') →
    training l y xs u ns pick fuel e (a ++ b) = training l y xs u ns pick fuel e' b
  | [], b, e, e', h => by cases h; rfl
  | f :: a, b, e, e', h => by
    simp only [training, List.cons_append] at h ⊢
    cases hi : iteration l y xs u ns pick fuel e f with
    | none => rw [hi] at h; cases h
    | some r =>
      cases r with
      | error p => rw [hi] at h; cases h
      | ok e1 =>
        simp only [hi] at h ⊢
        exact training_append h

/-- The classifier's gradient graph. -/
structure ClGraph (lay : Arr ℝ → List Int) (d : Nat) (column : Bool) (g : Graph POp) (tw tb : Nat) : Prop where
  reach : Reachable hintOps.toOps g
  old : OldRead g
  isw : IsOp g tw
  isb : IsOp g tb
  ne : tw ≠ tb
  size : g.nodes.length ≤ 100
  noUpd : ∀ n ∈ g.nodes, ∀ u, n.op ≠ .upd u
  vars : ∀ n ∈ g.nodes, ∀ v, n.variableId = some v → v = 0 ∨ v = 1
  var0 : VarTensor g 0 0
  var1 : VarTensor g 1 1
  first : ∀ a, Needed g [tw] a → ReadsVar g a 1 → Needed g [tb] a
  second : ∀ a, Needed g [tb] a → ReadsVar g a 0 → Needed g [tw] a

theorem readsIn_of {g : Graph POp} {v : Nat} {l l' : List Nat} (h : readsIn g v l l' = true) {a : Nat} (ha : a ∈ l) (hr : ReadsVar g a v) : a ∈ l' := by
  have := List.all_eq_true.1 h a (List.mem_filter.2 ⟨ha, readsB_of hr⟩)
  simpa using this

theorem cl_graphOk (bot : ℝ) (lay : Arr ℝ → List Int) (d : Nat) (column : Bool) (hd : 0 < d) : ∃ r tw tb, r.grads = [tw, tb] ∧ ClGraph lay d column r.g tw tb ∧
    ∀ pick, PicksMax pick → ∀ fuel, 50 ≤ fuel → grad gradOps pick fuel (clGraph bot lay d column) [12] [0, 1] = some (.ok r) := by
  obtain ⟨r, tw, tb, hr, hrs, hc⟩ := cl_check bot lay d column
  have hl := cl_graph bot lay d column hd
  have hB := grad_builds opGrad_builds hr
  have hold : OldRead r.g := hB.oldRead cl_oldRead
  simp only [clCheck, readsCheck, Bool.and_eq_true, decide_eq_true_eq, isOpB_iff, List.all_eq_true] at hc
  obtain ⟨h1, h2, h3, h4, h5, h6, h7⟩ := hc
  have hnode : ∀ k n, (clGraph bot lay d column).nodes[k]? = some n → r.g.nodes[k]? = some n := fun k n hn => hB.grows.1 k n hn
  refine ⟨r, tw, tb, hrs, ⟨hB.reach (prog_reach hl), hold, h1, h2, h4, h3, ?_, ?_, ?_, ?_, ?_, ?_⟩, fun pick hpick fuel hf => ?_⟩
  · rintro n hn u hu
    have := h5 n hn
    simp [nodeCheck, hu] at this
  · rintro n hn v hv
    have := h5 n hn
    simp only [nodeCheck, hv, Bool.and_eq_true, Bool.or_eq_true, beq_iff_eq] at this
    exact this.2
  · cases column <;> exact ⟨_, hnode 0 _ rfl, rfl⟩
  · cases column <;> exact ⟨_, hnode 1 _ rfl, rfl⟩
  · intro a ha hr
    rw [needed_iff hold h1] at ha
    rw [needed_iff hold h2]
    exact readsIn_of h6 ha hr
  · intro a ha hr
    rw [needed_iff hold h2] at ha
    rw [needed_iff hold h1]
    exact readsIn_of h7 ha hr
  · rw [grad_thin demoPick_max hpick (cl_thin bot lay d column) hf]
    exact hr

/-- The state of the optimizer of the classifier. -/
structure ClSetup (u : UOp) (ns : Str) (d c : Nat) (e1 : VarEnv (Arr ℝ)) (w0 b0 : Arr ℝ) (sw sb : List Nat) : Prop where
  wshape : w0.shape = [d, c]
  bshape : b0.shape = [1, c]
  wstate : StateOf u ns e1 0 sw
  bstate : StateOf u ns e1 1 sb
  wready : Ready u 0 w0 e1.arrays sw
  bready : Ready u 1 b0 e1.arrays sb
  apart : ∀ x ∈ 0 :: sw, x ∉ 1 :: sb
  wids : ∀ s ∈ sw, 2 ≤ s
  bids : ∀ s ∈ sb, 2 ≤ s

theorem cl_setup {u : UOp} {ns : Str} {hist : List (VarAction (Arr ℝ))} {e0 e1 : VarEnv (Arr ℝ)} (H : VarHist hist e0) {vids : List Nat}
    (hnew : u.create ns e0 vids = .ok e1) (h0 : 0 ∈ vids) (h1 : 1 ∈ vids) {w0 b0 : Arr ℝ} (hw : e0.getById 0 = some w0) (hb : e0.getById 1 = some b0)
    {d c : Nat} (hws : w0.shape = [d, c]) (hbs : b0.shape = [1, c]) : ∃ sw sb, ClSetup u ns d c e1 w0 b0 sw sb := by
  obtain ⟨sw, w1, w2, w3⟩ := ready H hnew h0 hw
  obtain ⟨sb, b1, b2, b3⟩ := ready H hnew h1 hb
  obtain ⟨_, H1⟩ := create_hist H hnew
  have hlen : 1 < e0.arrays.length := (List.getElem?_eq_some_iff.1 hb).1
  exact ⟨sw, sb, hws, hbs, w1, b1, w3, b3, state_separate H1 (Nat.lt_of_succ_lt hlen) hlen w1 b1 w2 b2 (by simp),
    fun s hs => by have := w2 s hs; omega, fun s hs => by have := b2 s hs; omega⟩

theorem stateOf_names {u : UOp} {ns : Str} {e e' : VarEnv (Arr ℝ)} (h : e.names = e'.names) : StateOf u ns e = StateOf u ns e' := by
  funext v svs
  unfold StateOf
  rw [h]

theorem varTensor_unique {g : Graph POp} {t v v' : Nat} (h : VarTensor g t v) (h' : VarTensor g t v') : v = v' := by
  obtain ⟨n, h1, h2⟩ := h
  obtain ⟨n', h1', h2'⟩ := h'
  rw [h1] at h1'
  cases h1'
  rw [h2] at h2'
  exact Option.some.inj h2'

/-- The gradients of the classifier can be used for an update. -/
theorem cl_gradsOk {u : UOp} {ns : Str} {lay : Arr ℝ → List Int} {d c : Nat} {column : Bool} {e1 e : VarEnv (Arr ℝ)} {w0 b0 : Arr ℝ} {sw sb : List Nat}
    (hS : ClSetup u ns d c e1 w0 b0 sw sb) (hn : e.names = e1.names) {g : Graph POp} {tw tb : Nat} (hC : ClGraph lay d column g tw tb)
    {gw gb : List (Arr ℝ)} (hTw : Training hintOps.toOps stepSem (.upd u) 0 sw e1.arrays gw e.arrays)
    (hTb : Training hintOps.toOps stepSem (.upd u) 1 sb e1.arrays gb e.arrays) {feeds : List (Feed (Arr ℝ))} {Gw Gb : Arr ℝ}
    (hGw : Evals (setting feeds e.arrays) g tw Gw) (hGb : Evals (setting feeds e.arrays) g tb Gb) (hGws : Gw.shape = [d, c]) (hGbs : Gb.shape = [1, c]) :
    GradsOk POp.sem stepSem (.upd u) (StateOf u ns e) g [(0, tw), (1, tb)] feeds e.arrays (fun pg => if pg.1 = 0 then Gw else Gb) := by
  have hmeans : ∀ {t : Nat} {v : Arr ℝ}, IsOp g t → Evals (setting feeds e.arrays) g t v → ∃ ys, Means POp.sem Arr.shape g feeds e.arrays t (.ok (v :: ys)) := by
    rintro t v ⟨n, h1, h2, h3⟩ ⟨h, _⟩
    cases h with
    | placeholder a _ c =>
      obtain ⟨_, _, c, _⟩ := c
      rw [h1] at a; cases a; rw [h2] at c; cases c
    | variable_ a b _ => rw [h1] at a; cases a; rw [h3] at b; cases b
    | @result ys _ a b =>
      match ys, b with
      | y :: ys, b => cases b; exact ⟨ys, a⟩
  have hvar : ∀ {a x : Nat}, ReadsVar g a x → x < 2 := by
    rintro a x ⟨n, _, i, _, m, h1, h2⟩
    rcases hC.vars m (List.mem_of_getElem? h1) x h2 with h | h <;> omega
  rw [stateOf_names hn]
  have hcase : ∀ {pg : Nat × Nat} {v : Nat} {svs : List Nat}, pg ∈ [(0, tw), (1, tb)] → VarTensor g pg.1 v → StateOf u ns e1 v svs →
      pg = (0, tw) ∧ v = 0 ∧ svs = sw ∨ pg = (1, tb) ∧ v = 1 ∧ svs = sb := by
    intro pg v svs hpg hv hs
    simp only [List.mem_cons, List.not_mem_nil, or_false] at hpg
    rcases hpg with rfl | rfl
    · have := varTensor_unique hv hC.var0
      subst this
      exact .inl ⟨rfl, rfl, stateOf_unique hs hS.wstate⟩
    · have := varTensor_unique hv hC.var1
      subst this
      exact .inr ⟨rfl, rfl, stateOf_unique hs hS.bstate⟩
  refine ⟨by simp, ?_, fun v svs svs' => stateOf_unique, ?_, ?_, ?_, ?_, ?_⟩
  · intro pg hpg pg' hpg' v svs v' svs' hv hv' hs hs' hne
    rcases hcase hpg hv hs with ⟨rfl, rfl, rfl⟩ | ⟨rfl, rfl, rfl⟩ <;> rcases hcase hpg' hv' hs' with ⟨rfl, rfl, rfl⟩ | ⟨rfl, rfl, rfl⟩
    · exact absurd rfl hne
    · exact hS.apart
    · exact fun x hx hx' => hS.apart x hx' hx
    · exact absurd rfl hne
  · intro pg hpg
    simp only [List.mem_cons, List.not_mem_nil, or_false] at hpg
    rcases hpg with rfl | rfl
    · exact hmeans hC.isw hGw
    · exact hmeans hC.isb hGb
  · intro a n _ hn
    exact stepSem_other (hC.noUpd n (List.mem_of_getElem? hn))
  · rintro a vid _ ⟨n, hn, i, hi, ha, _⟩
    rw [(hC.old a n hn i hi).2] at ha
    cases ha
  · intro pg hpg pg' hpg' v svs hv hs x hx a ha hr
    have hx2 := hvar hr
    simp only [List.mem_cons, List.not_mem_nil, or_false] at hpg'
    rcases hcase hpg hv hs with ⟨rfl, rfl, rfl⟩ | ⟨rfl, rfl, rfl⟩ <;> rcases hpg' with rfl | rfl
    · exact ha
    · rcases List.mem_cons.1 hx with rfl | hx
      · exact hC.second a ha hr
      · have := hS.wids x hx; omega
    · rcases List.mem_cons.1 hx with rfl | hx
      · exact hC.first a ha hr
      · have := hS.bids x hx; omega
    · exact ha
  · intro pg hpg v svs hv hs
    rcases hcase hpg hv hs with ⟨rfl, rfl, rfl⟩ | ⟨rfl, rfl, rfl⟩
    · obtain ⟨p, ss, h1, h2, h3, _⟩ := hS.wready.after _ _ hTw
      obtain ⟨ws, h4⟩ := h3 Gw (by rw [hGws, hS.wshape])
      exact ⟨p, ss, h1, fun w => ⟨w, ws, _, [], by rw [stepSem_upd]; simp only [if_pos]; rw [h4]; rfl⟩⟩
    · obtain ⟨p, ss, h1, h2, h3, _⟩ := hS.bready.after _ _ hTb
      obtain ⟨ws, h4⟩ := h3 Gb (by rw [hGbs, hS.bshape])
      exact ⟨p, ss, h1, fun w => ⟨w, ws, _, [], by rw [stepSem_upd]; simp only [one_ne_zero, if_false]; rw [h4]; rfl⟩⟩

/-- The environment after some mini-batches. -/
structure ClState (u : UOp) (e1 : VarEnv (Arr ℝ)) (sw sb : List Nat) (e : VarEnv (Arr ℝ)) (gw gb : List (Arr ℝ)) : Prop where
  names : e.names = e1.names
  w : Training hintOps.toOps stepSem (.upd u) 0 sw e1.arrays gw e.arrays
  b : Training hintOps.toOps stepSem (.upd u) 1 sb e1.arrays gb e.arrays

/-- The gradients of the mean loss of a mini-batch. -/
structure ClGrads (d c : Nat) (B : Batch) (w b Gw Gb : Arr ℝ) : Prop where
  ws : Gw.shape = [d, c]
  bs : Gb.shape = [1, c]
  dw : ∀ i < d, ∀ j < c, HasDerivAt (fun t => meanLoss B.n d c B.x (nudge w [i, j] t) b B.l) (Gw.get [i, j]) 0
  db : ∀ j < c, HasDerivAt (fun t => meanLoss B.n d c B.x w (nudge b [0, j] t) B.l) (Gb.get [0, j]) 0

/-- Training steps of the classifier succeed with enough iterations. -/
def ClSteps (bot : ℝ) (lay : Arr ℝ → List Int) (d c : Nat) (column : Bool) (u : UOp) (ns : Str) (e1 : VarEnv (Arr ℝ)) (sw sb : List Nat)
    (pick : Graph POp → List Nat → Nat) (fuel : Nat) : Prop :=
  ∀ e gw gb (B : Batch), ClState u e1 sw sb e gw gb → Dataset lay d column B.n c B.x B.y B.l → FirstFeed 2 "x" B.feeds B.x → FirstFeed 3 "y" B.feeds B.y →
    ∃ e' w b Gw Gb, e.getById 0 = some w ∧ e.getById 1 = some b ∧ iteration (classifier bot lay d column) 12 [0, 1] u ns pick fuel e B.feeds = some (.ok e') ∧
      ClGrads d c B w b Gw Gb ∧ ClState u e1 sw sb e' (gw ++ [Gw]) (gb ++ [Gb])

theorem cl_steps (bot : ℝ) (lay : Arr ℝ → List Int) {d c : Nat} (column : Bool) (hd : 0 < d) {u : UOp} {ns : Str} {e1 : VarEnv (Arr ℝ)} {w0 b0 : Arr ℝ}
    {sw sb : List Nat} (hS : ClSetup u ns d c e1 w0 b0 sw sb) :
    ∃ N, ∀ fuel, N ≤ fuel → ∀ pick, PicksMax pick → ClSteps bot lay d c column u ns e1 sw sb pick fuel := by
  have hl := cl_graph bot lay d column hd
  obtain ⟨r, tw, tb, hrs, hC, hr⟩ := cl_graphOk bot lay d column hd
  have hz : [0, 1].zip r.grads = [(0, tw), (1, tb)] := by rw [hrs]; rfl
  have hlt : ∀ {t}, IsOp r.g t → t < r.g.nodes.length := fun h => isOp_lt h
  obtain ⟨g', us, hup, hb⟩ := updates_built u ns e1 hC.reach.wf (pgs := [(0, tw), (1, tb)]) (by
    intro pg hpg
    simp only [List.mem_cons, List.not_mem_nil, or_false] at hpg
    rcases hpg with rfl | rfl
    · exact ⟨⟨0, sw, hC.var0, hS.wstate⟩, hlt hC.isw⟩
    · exact ⟨⟨1, sb, hC.var1, hS.bstate⟩, hlt hC.isb⟩) (by
    have := hC.size
    show r.g.nodes.length + 4 * 2 ≤ 500000
    omega)
  refine ⟨max 50 (2 * (us.length + edgeCount g')), fun fuel hf pick hpick e gw gb B he hD hfx hfy => ?_⟩
  have hr := hr pick hpick fuel (le_trans (le_max_left _ _) hf)
  obtain ⟨w, ss, hw, hws, _⟩ := hS.wready.after _ _ he.w
  obtain ⟨b, ss', hb', hbs, _⟩ := hS.bready.after _ _ he.b
  have hw : e.arrays[0]? = some w := by cases hw; assumption
  have hb' : e.arrays[1]? = some b := by cases hb'; assumption
  obtain ⟨L, Gw, Gb, _, h2, h3, _, _, h6, h7, h8, h9⟩ := cl_gradient hpick hl hr hrs hD hfx hfy hw hb' (by rw [hws, hS.wshape]) (by rw [hbs, hS.bshape])
  have hG := cl_gradsOk hS he.names hC he.w he.b h2 h3 h6 h8
  rw [← hz] at hG hb hup
  rw [← updates_names u ns he.names] at hup
  obtain ⟨arrays, i1, i2⟩ := iteration_step hl hr hC.reach hC.old hup (by rw [stateOf_names he.names]; exact hb) hG (le_trans (le_max_right _ _) hf)
  refine ⟨_, w, b, Gw, Gb, hw, hb', i1, ⟨h6, h8, h7, h9⟩, he.names, ?_, ?_⟩
  · exact i2 (0, tw) (by rw [hz]; simp) 0 sw hC.var0 (by rw [stateOf_names he.names]; exact hS.wstate) _ _ he.w
  · exact i2 (1, tb) (by rw [hz]; simp) 1 sb hC.var1 (by rw [stateOf_names he.names]; exact hS.bstate) _ _ he.b

theorem cl_train {bot : ℝ} {lay : Arr ℝ → List Int} {d c : Nat} {column : Bool} {u : UOp} {ns : Str} {e1 : VarEnv (Arr ℝ)} {sw sb : List Nat}
    {pick : Graph POp → List Nat → Nat} {fuel : Nat} (hs : ClSteps bot lay d c column u ns e1 sw sb pick fuel) {batches : List Batch}
    (hB : ∀ B ∈ batches, Dataset lay d column B.n c B.x B.y B.l ∧ FirstFeed 2 "x" B.feeds B.x ∧ FirstFeed 3 "y" B.feeds B.y) :
    ∀ n, n ≤ batches.length → ∃ (E : Nat → VarEnv (Arr ℝ)) (Gw Gb : Nat → Arr ℝ),
      (∀ k, k ≤ n → training (classifier bot lay d column) 12 [0, 1] u ns pick fuel e1 ((batches.take k).map Batch.feeds) = some (.ok (E k)) ∧
        ClState u e1 sw sb (E k) ((List.range k).map Gw) ((List.range k).map Gb)) ∧
      ∀ k B, k < n → batches[k]? = some B → ∃ w b, (E k).getById 0 = some w ∧ (E k).getById 1 = some b ∧ ClGrads d c B w b (Gw k) (Gb k) := by
  intro n
  induction n with
  | zero =>
    intro _
    refine ⟨fun _ => e1, fun _ => zerosOf ⟨[], [], fun _ => 0⟩, fun _ => zerosOf ⟨[], [], fun _ => 0⟩, fun k hk => ?_, fun k B hk => absurd hk (by omega)⟩
    have : k = 0 := by omega
    subst this
    exact ⟨rfl, rfl, .start, .start⟩
  | succ n ih =>
    intro hn
    obtain ⟨E, Gw, Gb, h1, h2⟩ := ih (by omega)
    obtain ⟨t1, s1⟩ := h1 n (le_refl _)
    have hB' := hB batches[n] (List.getElem_mem _)
    obtain ⟨e', w, b, Gw', Gb', a1, a2, a3, a4, a5⟩ := hs (E n) _ _ batches[n] s1 hB'.1 hB'.2.1 hB'.2.2
    have hcong : ∀ (F : Nat → Arr ℝ) (F' : Arr ℝ) (k : Nat), k ≤ n → (List.range k).map (fun m => if m = n then F' else F m) = (List.range k).map F := by
      intro F F' k hk
      refine List.map_congr_left fun m hm => ?_
      have := List.mem_range.1 hm
      rw [if_neg (by omega)]
    refine ⟨fun k => if k = n + 1 then e' else E k, fun k => if k = n then Gw' else Gw k, fun k => if k = n then Gb' else Gb k, fun k hk => ?_, fun k B hk hkB => ?_⟩
    · by_cases hkn : k = n + 1
      · subst hkn
        simp only [if_true]
        refine ⟨?_, ?_⟩
        · rw [List.take_succ_eq_append_getElem (by omega), List.map_append, training_append t1]
          simp only [List.map_cons, List.map_nil, training, a3]
        · rw [List.range_succ, List.map_append, List.map_append, hcong Gw Gw' n (le_refl _), hcong Gb Gb' n (le_refl _)]
          simpa using a5
      · simp only [if_neg hkn]
        rw [hcong Gw Gw' k (by omega), hcong Gb Gb' k (by omega)]
        exact h1 k (by omega)
    · simp only [show k ≠ n + 1 by omega, if_false]
      by_cases hkn : k = n
      · subst hkn
        rw [List.getElem?_eq_getElem (by omega)] at hkB
        cases hkB
        simp only [if_true]
        exact ⟨w, b, a1, a2, a4⟩
      · simp only [if_neg hkn]
        exact h2 k B (by omega) hkB

theorem gradAt_same {F : Nat → Arr ℝ} {k : Nat} {s idx : List Nat} (hi : InB idx s) (hF : ∀ m < k, (F m).shape = s) :
    GradAt ((List.range k).map F) idx (fun m => (F m).get idx) := by
  intro m a ha
  rw [List.getElem?_map, Option.map_eq_some_iff] at ha
  obtain ⟨m', hm, rfl⟩ := ha
  rw [List.getElem?_eq_some_iff] at hm
  obtain ⟨h1, h2⟩ := hm
  rw [List.getElem_range] at h2
  subst h2
  rw [List.length_range] at h1
  refine ⟨idx, ?_, rfl⟩
  have := readsAt_bIdx (broadcastsTo_self s) hi
  rw [bIdx_self hi] at this
  rw [hF m h1]
  exact this

end Verif.Prog
