import Verif.Lemmas.Below
import Verif.Lemmas.Classifier
import Verif.Props.Program

/-! The values of the gradients of the classifier. -/

namespace Verif.Prog
open Verif Verif.Spec Verif.Gradient Verif.Graph Verif.Eval Verif.Nd Verif.Hint Verif.Props

/-- The values of the loss and of its gradients. -/
theorem cl_gradient {bot : ℝ} {lay : Arr ℝ → List Int} {d : Nat} {column : Bool} {pick : Graph POp → List Nat → Nat} (hpick : PicksMax pick) {fuel : Nat}
    (hl : runProgram (classifier bot lay d column) = .ok (clGraph bot lay d column, [0, 1, 2, 3, 4, 8, 9, 11, 12])) {r : GradResult POp} {tw tb : Nat}
    (hr : grad gradOps pick fuel (clGraph bot lay d column) [12] [0, 1] = some (.ok r)) (hrs : r.grads = [tw, tb])
    {n c : Nat} {x y : Arr ℝ} {l : Nat → Nat} (hD : Dataset lay d column n c x y l) {feeds : List (Feed (Arr ℝ))} (hfx : FirstFeed 2 "x" feeds x)
    (hfy : FirstFeed 3 "y" feeds y) {env : List (Arr ℝ)} {w b : Arr ℝ} (hw : env[0]? = some w) (hb : env[1]? = some b) (hws : w.shape = [d, c])
    (hbs : b.shape = [1, c]) : ∃ L Gw Gb : Arr ℝ, Evals (setting feeds env) r.g 12 L ∧ Evals (setting feeds env) r.g tw Gw ∧ Evals (setting feeds env) r.g tb Gb ∧
      L.shape = [1] ∧ L.get [0] = meanLoss n d c x w b l ∧
      Gw.shape = [d, c] ∧ (∀ j < d, ∀ k < c, HasDerivAt (fun u => meanLoss n d c x (nudge w [j, k] u) b l) (Gw.get [j, k]) 0) ∧
      Gb.shape = [1, c] ∧ ∀ k < c, HasDerivAt (fun u => meanLoss n d c x w (nudge b [0, k] u) l) (Gb.get [0, k]) 0 := by
  obtain ⟨p, hv, p0, p1, p2, p3, p4, p8, p9, p11, p12, hloss⟩ := cl_values (bot := bot) hD hfx hfy hw hb hws hbs
  have hok := cl_ok (bot := bot) hD (by rw [p1]; exact hbs) p3 p4 p8 p9 p11
  obtain ⟨G, hG, hmove⟩ := C55_gradient_of_program_partial _ _ _ hl _ env p hv pick hpick fuel [12] [0, 1] hok
    (by intro y hy; rw [List.mem_singleton.1 hy, cl_length]; decide) (by simp) cl_leaf r hr
  have hP := progGraph hl hv hok
  have hB := grad_builds opGrad_builds hr
  rw [hrs] at hG
  obtain ⟨hGw, hGb⟩ : (Evals _ r.g tw (G 0) ∧ _) ∧ (Evals _ r.g tb (G 1) ∧ _) := by
    cases hG with
    | cons h1 h2 => cases h2 with
      | cons h2 _ => exact ⟨h1, h2⟩
  -- the loss at changed variables
  have hchange : ∀ (w' b' : ℝ → Arr ℝ) (dw db : List Nat → ℝ), Moves w' w dw → Moves b' b db →
      HasDerivAt (fun u => meanLoss n d c x (w' u) (b' u) l) (Prog.inner w.shape (G 0).get dw + Prog.inner b.shape (G 1).get db) 0 := by
    intro w' b' dw db hmw hmb
    have hval : ∀ u, ∃ q : Nat → Arr ℝ, (∀ k, k < (clGraph bot lay d column).nodes.length →
        Evals (setting feeds [w' u, b' u]) (clGraph bot lay d column) k (q k)) ∧ q 0 = w' u ∧ q 1 = b' u ∧ q 2 = x ∧ q 3 = y ∧
        (q 12).shape = [1] ∧ (q 12).get [0] = meanLoss n d c x (w' u) (b' u) l := by
      intro u
      obtain ⟨q, h1, h2, h3, h4, h5, _, _, _, _, h6, h7⟩ := cl_values (bot := bot) hD hfx hfy (env := [w' u, b' u]) rfl rfl (by rw [hmw.shape, hws]) (by rw [hmb.shape, hbs])
      exact ⟨q, h1, h2, h3, h4, h5, h6, h7⟩
    have hlt : ∀ k, k < 13 → k < (clGraph bot lay d column).nodes.length := fun k hk => by rwa [cl_length]
    obtain ⟨Y, hY, hder⟩ := hmove (fun _ => feeds) (fun u => [w' u, b' u]) (fun z => if z = 0 then w' else b')
      (fun z => if z = 0 then dw else db)
      (by
        intro z hz
        simp only [List.mem_cons, List.not_mem_nil, or_false] at hz
        rcases hz with rfl | rfl
        · refine ⟨by rw [p0]; exact hmw, fun u => ?_⟩
          obtain ⟨q, h1, h2, _⟩ := hval u
          have := h1 0 (hlt 0 (by decide))
          rwa [h2] at this
        · refine ⟨by rw [p1]; exact hmb, fun u => ?_⟩
          obtain ⟨q, h1, _, h2, _⟩ := hval u
          have := h1 1 (hlt 1 (by decide))
          rwa [h2] at this)
      (by
        intro z hz hzx u
        obtain ⟨q, h1, _, _, h2, h3, _⟩ := hval u
        rcases cl_other hz hzx with rfl | rfl
        · have := h1 2 (hlt 2 (by decide))
          rw [h2] at this
          rwa [p2]
        · have := h1 3 (hlt 3 (by decide))
          rw [h3] at this
          rwa [p3])
    have hfun : (fun u => ([12].map (fun y => total (Y u y))).sum) = fun u => meanLoss n d c x (w' u) (b' u) l := by
      funext u
      obtain ⟨q, h1, _, _, _, _, h2, h3⟩ := hval u
      have : Y u 12 = q 12 := evals_unique' (hY u 12 (hlt 12 (by decide))).1 (h1 12 (hlt 12 (by decide)))
      simp only [List.map, List.sum_cons, List.sum_nil, add_zero, this, total, h2, sum_idxs_one, Finset.sum_range_one, h3]
    rw [hfun] at hder
    simpa [p0, p1] using hder
  refine ⟨p 12, G 0, G 1, Evals.mono hB.grows hP.closed (hv 12 (by rw [cl_length]; decide)), hGw.1, hGb.1, p12, hloss, by rw [hGw.2, p0, hws], fun j hj k hk => ?_, by rw [hGb.2, p1, hbs], fun k hk => ?_⟩
  · have := hchange (nudge w [j, k]) (fun _ => b) _ _ (nudge_moves w [j, k]) (moves_const b)
    have hI : InB [j, k] w.shape := by rw [hws]; exact .cons hj (.cons hk .nil)
    rw [inner_single hI] at this
    simpa [Prog.inner] using this
  · have := hchange (fun _ => w) (nudge b [0, k]) _ _ (moves_const w) (nudge_moves b [0, k])
    have hI : InB [0, k] b.shape := by rw [hbs]; exact .cons Nat.zero_lt_one (.cons hk .nil)
    rw [inner_single hI] at this
    simpa [Prog.inner] using this

theorem cl_oldRead {bot : ℝ} {lay : Arr ℝ → List Int} {d : Nat} {column : Bool} : OldRead (clGraph bot lay d column) := by
  have h : ((clGraph bot lay d column).nodes.zipIdx.all fun p => p.1.incoming.all fun i => decide (i.id < p.2) && !i.allowMut) = true := by cases column <;> cbv
  intro k nd hn i hi
  rw [List.all_eq_true] at h
  have h1 := h (nd, k) (List.mem_zipIdx_iff_getElem?.2 hn)
  rw [List.all_eq_true] at h1
  have := h1 i hi
  simp only [Bool.and_eq_true, decide_eq_true_eq, Bool.not_eq_true'] at this
  exact this

/-- The tensors of `l` that read `vid` are in `l'`. -/
def readsIn (g : Graph POp) (vid : Nat) (l l' : List Nat) : Bool := (l.filter fun a => readsB g a vid).all fun a => l'.contains a

def readsCheck (g : Graph POp) (bw bb : List Nat) : Bool := readsIn g 1 bw bb && readsIn g 0 bb bw

def nodeCheck (n : Node POp) : Bool :=
  (match n.op with | .upd _ => false | _ => true) && (match n.variableId with | none => true | some v => v == 0 || v == 1)

/-- What is checked of the gradient graph of the classifier. -/
def clCheck (g : Graph POp) (tw tb : Nat) : Bool :=
  isOpB g tw && (isOpB g tb && (decide (g.nodes.length ≤ 100) && (decide (tw ≠ tb) && (g.nodes.all nodeCheck && readsCheck g (below g tw) (below g tb)))))

theorem cl_check_vector (bot : ℝ) (lay : Arr ℝ → List Int) (d : Nat) : (match grad gradOps demoPick 50 (clGraph bot lay d false) [12] [0, 1] with
    | some (.ok r) => (match r.grads with
      | [a, b] => clCheck r.g a b
      | _ => false)
    | _ => false) = true := by cbv

theorem cl_check_column (bot : ℝ) (lay : Arr ℝ → List Int) (d : Nat) : (match grad gradOps demoPick 50 (clGraph bot lay d true) [12] [0, 1] with
    | some (.ok r) => (match r.grads with
      | [a, b] => clCheck r.g a b
      | _ => false)
    | _ => false) = true := by cbv

theorem cl_check (bot : ℝ) (lay : Arr ℝ → List Int) (d : Nat) (column : Bool) : ∃ r tw tb,
    grad gradOps demoPick 50 (clGraph bot lay d column) [12] [0, 1] = some (.ok r) ∧ r.grads = [tw, tb] ∧ clCheck r.g tw tb = true := by
  have h : (match grad gradOps demoPick 50 (clGraph bot lay d column) [12] [0, 1] with
      | some (.ok r) => (match r.grads with
        | [a, b] => clCheck r.g a b
        | _ => false)
      | _ => false) = true := by
    cases column
    · exact cl_check_vector bot lay d
    · exact cl_check_column bot lay d
  revert h
  generalize grad gradOps demoPick 50 (clGraph bot lay d column) [12] [0, 1] = o
  intro h
  match o, h with
  | some (.ok ⟨g, [a, b], _⟩), h => exact ⟨_, a, b, rfl, rfl, h⟩

end Verif.Prog
