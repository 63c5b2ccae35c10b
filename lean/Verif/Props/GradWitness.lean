import Verif.Lemmas.GradGoodRun
import Verif.Props.Gradient

/-! # C20, C21, C22: witnesses of violations; examples for the theorems about differentiation

All graphs are made of the scalar ops of `Verif.Lemmas.GradDemo`, whose gradients are correct. -/

namespace Verif.Props
open Verif Verif.Spec Verif.Gradient Verif.Graph Verif.Eval

/-- `a`, `b`, `h = a * b`, `y = h * h`, `1` -/
def squareCmds : List (Cmd DOp) :=
  [.var 0, .var 1, .build { inNodes := [{ id := 0 }, { id := 1 }] } .mul, .build { inNodes := [{ id := 2 }, { id := 2 }] } .mul, .build {} .one]

def square : Graph DOp := demoGraph squareCmds

/-- The values for `a = 2`, `b = 3`. -/
def squareVals : List ℤ := [2, 3, 6, 36, 1]

def squareK : Calculus DOp := demoCalculus [2, 3] square squareVals

theorem square_reachable : Reachable demoP square := Reachable.all (cs := squareCmds) .init rfl

theorem square_check : graphCheck square = true := by rfl

theorem square_vals : valCheck [2, 3] square squareVals = true := by decide

/-- **C20** violated: with `h = a * b` and `y = h * h` the gradient of `y` with respect to the intermediate tensor `h` comes out as `3 h` instead of
`2 h` (18 instead of 12 for `a = 2`, `b = 3`), although all ops are correct and `h` is requested only once. -/
theorem C20_interior_violated :
    ∃ r, GoodRun demoO demoPick 50 square [3] [2] [4] r squareK (fun _ => AddMonoidHom.id ℤ) ∧ r.grads = [11] ∧
      Evals (demoSet [2, 3]) r.g 11 (18 : ℤ) ∧ ¬ C20_statement demoO square [3] [2] [4] r squareK (fun _ => AddMonoidHom.id ℤ) := by
  have hrun : gradWithDefault demoO demoPick 50 square [3] [2] [4] = some (.ok (demoRun square [3] [2] [4])) := by rfl
  have hv : valCheck [2, 3] (demoRun square [3] [2] [4]).g [2, 3, 6, 36, 1, 6, 6, 0, 12, 36, 24, 18] = true := by decide
  have hl : (demoRun square [3] [2] [4]).g.nodes.length = 12 := by rfl
  have hgr : (demoRun square [3] [2] [4]).grads = [11] := by rfl
  have hgood : GoodRun demoO demoPick 50 square [3] [2] [4] (demoRun square [3] [2] [4]) squareK (fun _ => AddMonoidHom.id ℤ) :=
    good_run (cs := squareCmds) rfl square_check square_vals (isDiff_single (y := 3) rfl (by simp)) (by decide) hrun (o := 4) rfl (by decide) rfl
  refine ⟨_, hgood, hgr, vals_of_check hv 11 (by rw [hl]; decide), fun h => ?_⟩
  obtain ⟨cov, h1, h2⟩ := h hgood.sound hgood.rep
  obtain ⟨v, hv1, hv2⟩ := h1 0 2 11 rfl (by rw [hgr]; rfl)
  have hv3 : v = 18 := val_unique hv (by rw [hl]; decide) hv1
  have ht : MovedBy squareK square [2].toFinset (listVal [0, 0, 1, 12, 0]) := moved_of_check (by decide)
  have h3 := h2 [2].toFinset (by
    intro x hx
    obtain rfl : x = 2 := by simpa using hx
    refine ⟨by simp, ⟨_, rfl, rfl⟩, by simp, fun x' hx' => ?_⟩
    obtain rfl : x' = 2 := by simpa using hx'
    exact bpDag_irrefl (check_bpDag square_check) 2) _ ht (fun _ => 0) (by simp)
  have h4 : (12 : ℤ) = cov 0 2 (1 : ℤ) := h3.trans (Finset.sum_singleton (fun x => cov 0 x (listVal [0, 0, 1, 12, 0] x)) 2)
  have h5 : (cov 0 2 (1 : ℤ) : ℤ) = v * 1 := hv2 1
  rw [hv3] at h5
  rw [h5] at h4
  exact absurd h4 (by decide)

/-- `x`, `y = x * x`, `1` -/
def twiceCmds : List (Cmd DOp) := [.var 0, .build { inNodes := [{ id := 0 }, { id := 0 }] } .mul, .build {} .one]

def twice : Graph DOp := demoGraph twiceCmds

def twiceK : Calculus DOp := demoCalculus [5] twice [5, 25, 1]

/-- **C20** violated: if the same tensor is requested twice (`xs = [x, x]` with `y = x * x`), the second returned gradient is wrong, `3 x` instead of `2 x`
(15 instead of 10 for `x = 5`). -/
theorem C20_repeated_violated :
    ∃ r, GoodRun demoO demoPick 50 twice [1] [0, 0] [2] r twiceK (fun _ => AddMonoidHom.id ℤ) ∧ r.grads = [6, 7] ∧
      Evals (demoSet [5]) r.g 6 (10 : ℤ) ∧ Evals (demoSet [5]) r.g 7 (15 : ℤ) ∧
      ¬ C20_statement demoO twice [1] [0, 0] [2] r twiceK (fun _ => AddMonoidHom.id ℤ) := by
  have hrun : gradWithDefault demoO demoPick 50 twice [1] [0, 0] [2] = some (.ok (demoRun twice [1] [0, 0] [2])) := by rfl
  have hv : valCheck [5] (demoRun twice [1] [0, 0] [2]).g [5, 25, 1, 5, 5, 0, 10, 15] = true := by decide
  have hl : (demoRun twice [1] [0, 0] [2]).g.nodes.length = 8 := by rfl
  have hgr : (demoRun twice [1] [0, 0] [2]).grads = [6, 7] := by rfl
  have hc : graphCheck twice = true := by rfl
  have hgood : GoodRun demoO demoPick 50 twice [1] [0, 0] [2] (demoRun twice [1] [0, 0] [2]) twiceK (fun _ => AddMonoidHom.id ℤ) :=
    good_run (cs := twiceCmds) rfl hc (by decide) (isDiff_single (y := 1) rfl (by simp)) (by decide) hrun (o := 2) rfl (by decide) rfl
  refine ⟨_, hgood, hgr, vals_of_check hv 6 (by rw [hl]; decide), vals_of_check hv 7 (by rw [hl]; decide), fun h => ?_⟩
  obtain ⟨cov, h1, h2⟩ := h hgood.sound hgood.rep
  obtain ⟨v, hv1, hv2⟩ := h1 1 0 7 rfl (by rw [hgr]; rfl)
  have hv3 : v = 15 := val_unique hv (by rw [hl]; decide) hv1
  have ht : MovedBy twiceK twice [0].toFinset (listVal [1, 10, 0]) := moved_of_check (by decide)
  have h3 := h2 [0].toFinset (by
    intro x hx
    obtain rfl : x = 0 := by simpa using hx
    refine ⟨by simp, ⟨_, rfl, rfl⟩, by simp, fun x' hx' => ?_⟩
    obtain rfl : x' = 0 := by simpa using hx'
    exact bpDag_irrefl (check_bpDag hc) 0) _ ht (fun _ => 1) (by simp)
  have h4 : (10 : ℤ) = cov 1 0 (1 : ℤ) := h3.trans (Finset.sum_singleton (fun x => cov 1 x (listVal [1, 10, 0] x)) 0)
  have h5 : (cov 1 0 (1 : ℤ) : ℤ) = v * 1 := hv2 1
  rw [hv3] at h5
  rw [h5] at h4
  exact absurd h4 (by decide)

/-! ## C21 -/

/-- `x`, `y = noGrad(x)` -/
def blockedCmds : List (Cmd DOp) := [.var 0, .build { inNodes := [{ id := 0 }] } .noGrad]

def blocked : Graph DOp := demoGraph blockedCmds

/-- **C21** violated: `y` depends on `x` only through an op that is declared differentiable but returns no gradient (as e.g. the comparison ops do);
`grad(&[y], &[x])` then panics (index out of range in `gradients[0]`) instead of returning zeros. No `Op::grad` panics. -/
theorem C21_no_gradient_violated :
    Reachable demoP blocked ∧ BpDag blocked ∧ PicksMax (demoPick (Op := DOp)) ∧ IsSource blocked 0 ∧ GradWellFormed blocked demoGrad ∧
      (∀ (n : Nat) (node : Node DOp) g y gy, blocked.nodes[n]? = some node → ¬ IsSource blocked n → y < g.nodes.length →
        ∃ r, demoGrad node.op g y gy = .ok r) ∧
      grad demoO demoPick 50 blocked [1] [0] = some (.error .noGradient) := by
  have hc : graphCheck blocked = true := by rfl
  refine ⟨Reachable.all (cs := blockedCmds) .init rfl, check_bpDag hc, demoPick_max, ⟨_, rfl, rfl⟩, demo_wellFormed fun _ _ hn => (check_bp hc hn).2, ?_, rfl⟩
  intro n node g y gy hn hs hy
  match n, hn with
  | 0, hn => exact absurd ⟨_, rfl, rfl⟩ hs
  | 1, hn =>
    cases hn
    exact ⟨_, by simp only [demoGrad, lift_ok.2 (access_some.2 (List.getElem?_eq_getElem hy)), bind, Except.bind]; rfl⟩

/-! ## C22 -/

/-- `a`, `x`, `y = a * x`, `1` -/
def prodCmds : List (Cmd DOp) := [.var 0, .var 1, .build { inNodes := [{ id := 0 }, { id := 1 }] } .mul, .build {} .one]

def prod : Graph DOp := demoGraph prodCmds

def prodK : Calculus DOp := demoCalculus [2, 3] prod [2, 3, 6, 1]

/-- **C22** violated: if an objective is listed twice in `grad_with_default`, with output gradients 1, the gradient of `y = a * x` with respect to `x` is
`5 a` instead of `2 a` (10 instead of 4 for `a = 2`), whereas the gradient of the objective listed once is `a`. -/
theorem C22_repeated_violated :
    ∃ r r1, GoodRun demoO demoPick 50 prod [2, 2] [1] [3, 3] r prodK (fun _ => AddMonoidHom.id ℤ) ∧
      GoodRun demoO demoPick 50 prod [2] [1] [3] r1 prodK (fun _ => AddMonoidHom.id ℤ) ∧
      ∀ t t1, r.grads = [t] → r1.grads = [t1] → Evals (demoSet [2, 3]) r.g t (10 : ℤ) ∧ Evals (demoSet [2, 3]) r1.g t1 (2 : ℤ) ∧
        ¬ ∃ cov cov1 : ∀ k, prodK.T k →+ prodK.R, prodK.Rep r.g 1 t (cov 1) ∧ prodK.Rep r1.g 1 t1 (cov1 1) ∧ cov 1 = cov1 1 + cov1 1 := by
  have hrun : gradWithDefault demoO demoPick 50 prod [2, 2] [1] [3, 3] = some (.ok (demoRun prod [2, 2] [1] [3, 3])) := by rfl
  have hrun1 : gradWithDefault demoO demoPick 50 prod [2] [1] [3] = some (.ok (demoRun prod [2] [1] [3])) := by rfl
  have hv : valCheck [2, 3] (demoRun prod [2, 2] [1] [3, 3]).g [2, 3, 6, 1, 0, 2, 6, 4, 3, 9, 6, 0, 10] = true := by decide
  have hv1 : valCheck [2, 3] (demoRun prod [2] [1] [3]).g [2, 3, 6, 1, 3, 2] = true := by decide
  have hl : (demoRun prod [2, 2] [1] [3, 3]).g.nodes.length = 13 := by rfl
  have hl1 : (demoRun prod [2] [1] [3]).g.nodes.length = 6 := by rfl
  have hgr : (demoRun prod [2, 2] [1] [3, 3]).grads = [12] := by rfl
  have hgr1 : (demoRun prod [2] [1] [3]).grads = [5] := by rfl
  refine ⟨_, _, good_run (cs := prodCmds) rfl (by rfl) (by decide) (isDiff_single (y := 2) rfl (by simp)) (by decide) hrun (o := 3) rfl (by decide) rfl,
    good_run (cs := prodCmds) rfl (by rfl) (by decide) (isDiff_single (y := 2) rfl (by simp)) (by decide) hrun1 (o := 3) rfl (by decide) rfl, ?_⟩
  intro t t1 ht ht1
  rw [hgr] at ht; rw [hgr1] at ht1
  cases ht; cases ht1
  refine ⟨vals_of_check hv 12 (by rw [hl]; decide), vals_of_check hv1 5 (by rw [hl1]; decide), ?_⟩
  rintro ⟨cov, cov1, ⟨v, a1, a2⟩, ⟨v1, b1, b2⟩, h⟩
  have e : v = 10 := val_unique hv (by rw [hl]; decide) a1
  have e1 : v1 = 2 := val_unique hv1 (by rw [hl1]; decide) b1
  subst e; subst e1
  have key : ∀ c c1 : ℤ →+ ℤ, (∀ τ, c τ = 10 * τ) → (∀ τ, c1 τ = 2 * τ) → c = c1 + c1 → False := by
    intro c c1 h1 h2 h
    have := h1 1
    rw [h, AddMonoidHom.add_apply, h2] at this
    exact absurd this (by decide)
  exact key (cov 1) (cov1 1) a2 b2 h

/-! ## Examples for the hypotheses of the theorems -/

/-- `C18_graphs_are_dags` -/
example : ∃ ts, (Graph.empty : Graph DOp).execAll demoP squareCmds = .ok (square, ts) ∧ NoDependsOn squareCmds ∧
    ∀ (a : Nat) (n : Node DOp), square.nodes[a]? = some n → ∀ i ∈ n.bpInputs, ∃ j ∈ n.incoming, DependsOnRefl square j.id i.id := by
  refine ⟨_, rfl, ?_, ?_⟩
  · intro x deps hc
    simp [squareCmds] at hc
  · intro a n hn i hi
    rw [(check_bp square_check hn).2] at hi
    exact ⟨i, hi, .refl⟩

/-- `C18_grad_with_default_exact`, `C18_movements_exist`: `y = (a * b) * (a * b)` with respect to the leaves `a`, `b` -/
example : ∃ r, GoodRun demoO demoPick 50 square [3] [0, 1] [4] r squareK (fun _ => AddMonoidHom.id ℤ) ∧ [3].Nodup ∧ [0, 1].Nodup ∧
    (∀ x ∈ [0, 1], IsSource square x ∧ IsDiff square x ∧ x ∉ [3]) ∧ LocalLin squareK square := by
  refine ⟨demoRun square [3] [0, 1] [4], good_run (cs := squareCmds) rfl square_check square_vals (isDiff_single (y := 3) rfl (by simp)) (by decide) rfl
    (o := 4) rfl (by decide) rfl, by simp, by simp, ?_, scalar_local⟩
  intro x hx
  simp only [List.mem_cons, List.not_mem_nil, or_false] at hx
  rcases hx with rfl | rfl <;> exact ⟨⟨_, rfl, rfl⟩, ⟨_, rfl, rfl⟩, by simp⟩

/-- `a`, `b`, `h = a * b`, `y = h * b`, `1` -/
def chainCmds : List (Cmd DOp) :=
  [.var 0, .var 1, .build { inNodes := [{ id := 0 }, { id := 1 }] } .mul, .build { inNodes := [{ id := 2 }, { id := 1 }] } .mul, .build {} .one]

def chainG : Graph DOp := demoGraph chainCmds

/-- `C20_interior_partial`: `y = (a * b) * b` with respect to the intermediate tensor `h = a * b`, used once, and the leaf `a` -/
example : ∃ r, GoodRun demoO demoPick 50 chainG [3] [2, 0] [4] r (demoCalculus [2, 3] chainG [2, 3, 6, 18, 1]) (fun _ => AddMonoidHom.id ℤ) ∧
    [3].Nodup ∧ [2, 0].Nodup ∧ UsedOnce chainG 2 ∧ ¬ IsSource chainG 2 ∧ IsDiff chainG 2 := by
  have hc : graphCheck chainG = true := by rfl
  have hin : ∀ m (n : Node DOp), chainG.nodes[m]? = some n → ∀ i ∈ n.bpInputs, i.id = 2 → m = 3 := by
    intro m n hn i hi h2
    rw [(check_bp hc hn).2] at hi
    match m, hn with
    | 0, hn => cases hn; cases hi
    | 1, hn => cases hn; cases hi
    | 2, hn =>
      cases hn
      rcases List.mem_cons.1 hi with rfl | hi
      · cases h2
      · rcases List.mem_cons.1 hi with rfl | hi
        · cases h2
        · cases hi
    | 3, _ => rfl
    | 4, hn => cases hn; cases hi
  refine ⟨demoRun chainG [3] [2, 0] [4], good_run (cs := chainCmds) rfl hc (by decide) (isDiff_single (y := 3) rfl (by simp)) (by decide) rfl
    (o := 4) rfl (by decide) rfl, by simp, by simp, ⟨?_, ?_⟩, ?_, ⟨_, rfl, rfl⟩⟩
  · rintro m m' ⟨n, hn, i, hi, h⟩ ⟨n', hn', i', hi', h'⟩
    rw [hin m n hn i hi h, hin m' n' hn' i' hi' h']
  · intro m n a i b hn e h j hj
    obtain rfl := hin m n hn i (by rw [e]; simp) h
    cases hn
    rcases a with _ | ⟨a0, _ | ⟨a1, a⟩⟩
    · cases e
      simp at hj; subst hj; simp
    · cases e
      simp at h
    · have := congrArg List.length e
      simp [Node.bpInputs, Builder.toNode] at this
  · rintro ⟨n, hn, h⟩
    cases hn; cases h

/-- `C21_grad_with_default_total_partial`, `C23_once_consumers_first`: the product graph; the second variable is not reached from the
objective `a * a`. -/
example : ∃ r, GradWellFormed twice demoO.opGrad ∧ GradGiven twice [0] demoO.opGrad ∧ BpDag twice ∧ PicksMax (demoPick (Op := DOp)) ∧ (∀ y ∈ [1], IsDiff twice y) ∧
    gradWithDefault demoO demoPick 50 twice [1] [0] [2] = some (.ok r) ∧ r.log = [1] := by
  have hc : graphCheck twice = true := by rfl
  refine ⟨demoRun twice [1] [0] [2], demo_wellFormed fun _ _ hn => (check_bp hc hn).2, ?_, check_bpDag hc, demoPick_max,
    isDiff_single (y := 1) rfl (by simp), rfl, rfl⟩
  intro n node g g' gy gxs hg hn hd hgy h k i hk _
  have hw := demo_wellFormed (g0 := twice) (fun _ _ hn => (check_bp hc hn).2) hg hn hd hgy h
  rw [(check_bp hc hn).2] at hk
  match n, hn with
  | 0, hn => cases hn; cases hk
  | 2, hn => cases hn; cases hk
  | 1, hn =>
    have hn' := hn
    cases hn
    simp only [demoO, Builder.toNode, demoGrad, lift_ok.2 (access_some.2 (hg.1 _ _ hn')), bind, Except.bind] at h
    simp only [lift] at h
    cases h1 : g.build { inNodes := [{ id := gy }, { id := 0 }] } .mul with
    | error p => simp [h1] at h
    | ok v1 =>
      simp only [h1] at h
      cases h2 : v1.1.build { inNodes := [{ id := gy }, { id := 0 }] } .mul with
      | error p => simp [h2] at h
      | ok v2 =>
        simp only [h2, Except.ok.injEq, Prod.mk.injEq] at h
        obtain ⟨_, rfl⟩ := h
        rcases k with _ | _ | k
        · exact ⟨_, rfl⟩
        · exact ⟨_, rfl⟩
        · simp [Builder.toNode] at hk

/-- `C21_grad_total_partial`, `C18_grad_exact`, `C23_grad_once_consumers_first`: `grad` returns for the graph `square`. -/
example : ∃ r, grad demoO demoPick 50 square [3] [0, 1] = some (.ok r) ∧ (∀ y ∈ [3], y < square.nodes.length) ∧
    (∀ (x : Nat) (n : Node DOp) s, square.nodes[x]? = some n → n.shape = some s → s < square.nodes.length) :=
  ⟨_, rfl, by decide, check_shape square_check⟩

/-- `C22_additive_partial`: the objectives `[h, y]` together, and separately -/
example : ∃ r r1 r2, GoodRun demoO demoPick 50 square [2, 3] [0, 1] [4, 4] r squareK (fun _ => AddMonoidHom.id ℤ) ∧
    GoodRun demoO demoPick 50 square [2] [0, 1] [4] r1 squareK (fun _ => AddMonoidHom.id ℤ) ∧
    GoodRun demoO demoPick 50 square [3] [0, 1] [4] r2 squareK (fun _ => AddMonoidHom.id ℤ) ∧
    ∀ t : Nat → ℤ, ([2, 3].map t).sum = ([2].map t).sum + ([3].map t).sum := by
  refine ⟨demoRun square [2, 3] [0, 1] [4, 4], demoRun square [2] [0, 1] [4], demoRun square [3] [0, 1] [4], ?_, ?_, ?_, by intro t; simp⟩
  · refine good_run (cs := squareCmds) rfl square_check square_vals ?_ (by decide) rfl (o := 4) rfl (by decide) rfl
    intro y hy
    simp only [List.mem_cons, List.not_mem_nil, or_false] at hy
    rcases hy with rfl | rfl <;> exact ⟨_, rfl, rfl⟩
  · exact good_run (cs := squareCmds) rfl square_check square_vals (isDiff_single (y := 2) rfl (by simp)) (by decide) rfl (o := 4) rfl (by decide) rfl
  · exact good_run (cs := squareCmds) rfl square_check square_vals (isDiff_single (y := 3) rfl (by simp)) (by decide) rfl (o := 4) rfl (by decide) rfl

end Verif.Props
