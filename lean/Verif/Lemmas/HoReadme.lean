import Verif.Lemmas.HoMeaning

/-! The example of the README as a program with calls of `grad`. -/

namespace Verif.Prog
open Verif Verif.Nd Verif.Spec

/-- The example of the README (README.md:22-46): `z = 2 * x * x + 3 * y + 1`, its gradients with respect to `y` and `x`, and the gradient of the latter with respect to `x`. The numbers become
scalars as in src/tensor.rs:817-935. -/
noncomputable def readmeCalls : List Call :=
  [.op (.placeholder "x" []), .op (.placeholder "y" []), .op (.scalar 2), .op (.mul 2 0), .op (.mul 3 0), .op (.scalar 3), .op (.mul 5 1), .op (.add 4 6), .op (.scalar 1), .op (.add 7 8),
    .grad [9] [1], .grad [9] [0], .grad [11] [0]]

/-- The values that are fed. -/
noncomputable def readmePoint (a b : Arr ℝ) : Point := ⟨[("x", a), ("y", b)], []⟩

/-- The calls before those of `grad`. -/
noncomputable def readmeFirst : Meaning := meaning (readmeCalls.take 10)

theorem readme_sum (a b : Arr ℝ) (ha : a.shape = []) (hb : b.shape = []) :
    readmeFirst.sum [9] (readmePoint a b) = 2 * a.get [] * a.get [] + 3 * b.get [] + 1 := by
  simp [Meaning.sum, Meaning.at_, readmeFirst, readmeCalls, meaning, Meaning.add, opValue, arith, readmePoint, joinShape, joinPos, ha, hb, total, ofFn, idxs]

theorem readme_len (I : Point) : (readmeFirst.value I).length = 10 := rfl

theorem readme_x (a b : Arr ℝ) (i : List Nat) (u : ℝ) : (readmePoint a b).nudge (.placeholder "x") i u = readmePoint (Prog.nudge a i u) b := by
  simp [readmePoint, Point.nudge]

theorem readme_y (a b : Arr ℝ) (i : List Nat) (u : ℝ) : (readmePoint a b).nudge (.placeholder "y") i u = readmePoint a (Prog.nudge b i u) := by
  simp [readmePoint, Point.nudge]

theorem nudge_nil (a : Arr ℝ) (u : ℝ) : (Prog.nudge a [] u).get [] = a.get [] + u := by simp [Prog.nudge]

/-- The meanings of the program up to the calls of `grad`. -/
noncomputable def readmeY : Meaning := readmeFirst.add (.grad [9] [1])
noncomputable def readmeX : Meaning := readmeY.add (.grad [9] [0])

theorem readmeY_len (I : Point) : (readmeY.value I).length = 11 := rfl
theorem readmeX_len (I : Point) : (readmeX.value I).length = 12 := rfl

theorem readme_meaning : meaning readmeCalls = readmeX.add (.grad [11] [0]) := rfl

theorem readme_gy (a b : Arr ℝ) (ha : a.shape = []) (hb : b.shape = []) : Same (ofFn [] fun _ => (3 : ℝ)) ((meaning readmeCalls).at_ (readmePoint a b) 10) := by
  rw [readme_meaning, add_at (by rw [readmeX_len]; decide), readmeX, add_at (by rw [readmeY_len]; decide), readmeY, grad_at (leaf := .placeholder "y") (readme_len _) rfl]
  have : readmeFirst.at_ (readmePoint a b) 1 = b := rfl
  rw [this]
  refine ⟨hb.symm, fun i hi => ?_⟩
  have hi : InB i [] := hi
  cases hi
  show 3 = deriv (fun u => readmeFirst.sum [9] ((readmePoint a b).nudge (.placeholder "y") [] u)) 0
  have : (fun u => readmeFirst.sum [9] ((readmePoint a b).nudge (.placeholder "y") [] u)) = fun u => 2 * a.get [] * a.get [] + 3 * (b.get [] + u) + 1 := by
    funext u
    rw [readme_y, readme_sum a _ ha (by exact hb), nudge_nil]
  rw [this]
  refine (HasDerivAt.deriv ?_).symm
  have h := ((((hasDerivAt_id' (0 : ℝ)).const_add (b.get [])).const_mul 3).const_add (2 * a.get [] * a.get [])).add_const 1
  simpa using h

theorem readme_dx (a b : Arr ℝ) (ha : a.shape = []) (hb : b.shape = []) :
    (readmeX.at_ (readmePoint a b) 11).shape = [] ∧ (readmeX.at_ (readmePoint a b) 11).get [] = 4 * a.get [] := by
  rw [readmeX, grad_at (leaf := .placeholder "x") (readmeY_len _) rfl]
  have : readmeY.at_ (readmePoint a b) 0 = a := rfl
  rw [this]
  refine ⟨ha, ?_⟩
  show deriv (fun u => readmeY.sum [9] ((readmePoint a b).nudge (.placeholder "x") [] u)) 0 = _
  have : (fun u => readmeY.sum [9] ((readmePoint a b).nudge (.placeholder "x") [] u)) = fun u => 2 * (a.get [] + u) * (a.get [] + u) + 3 * b.get [] + 1 := by
    funext u
    rw [readme_x, readmeY, add_sum (by intro y hy; rw [List.mem_singleton.1 hy, readme_len]; decide), readme_sum _ b (by exact ha) hb, nudge_nil]
  rw [this]
  refine HasDerivAt.deriv ?_
  have hx := (hasDerivAt_id' (0 : ℝ)).const_add (a.get [])
  have h := (((hx.const_mul 2).mul hx).add_const (3 * b.get [])).add_const 1
  convert h using 1
  simp; ring

theorem readme_gx (a b : Arr ℝ) (ha : a.shape = []) (hb : b.shape = []) : Same (ofFn [] fun _ => 4 * a.get []) ((meaning readmeCalls).at_ (readmePoint a b) 11) := by
  rw [readme_meaning, add_at (by rw [readmeX_len]; decide)]
  obtain ⟨h1, h2⟩ := readme_dx a b ha hb
  refine ⟨h1.symm, fun i hi => ?_⟩
  have hi : InB i [] := hi
  cases hi
  exact h2.symm

theorem readme_ggx (a b : Arr ℝ) (ha : a.shape = []) (hb : b.shape = []) : Same (ofFn [] fun _ => (4 : ℝ)) ((meaning readmeCalls).at_ (readmePoint a b) 12) := by
  rw [readme_meaning, grad_at (leaf := .placeholder "x") (readmeX_len _) rfl]
  have : readmeX.at_ (readmePoint a b) 0 = a := rfl
  rw [this]
  refine ⟨ha.symm, fun i hi => ?_⟩
  have hi : InB i [] := hi
  cases hi
  show 4 = deriv (fun u => readmeX.sum [11] ((readmePoint a b).nudge (.placeholder "x") [] u)) 0
  have : (fun u => readmeX.sum [11] ((readmePoint a b).nudge (.placeholder "x") [] u)) = fun u => 4 * (a.get [] + u) := by
    funext u
    obtain ⟨h1, h2⟩ := readme_dx (Prog.nudge a [] u) b ha hb
    rw [readme_x]
    simp [Meaning.sum, total, h1, idxs, h2, nudge_nil]
  rw [this]
  refine (HasDerivAt.deriv ?_).symm
  have h := ((hasDerivAt_id' (0 : ℝ)).const_add (a.get [])).const_mul 4
  simpa using h

theorem readme_dom (a b : Arr ℝ) (ha : a.shape = []) (hb : b.shape = []) : (meaning readmeCalls).dom (readmePoint a b) := by
  have hacc : ShapeAccepts [] [] := ⟨rfl, fun k d u h => by cases h⟩
  have hj : ∀ s t : List Nat, s = [] → t = [] → Joinable s t := by rintro _ _ rfl rfl; simp [Joinable]
  have h0 : ∀ {f : ℝ → ℝ → ℝ} {c d : Arr ℝ}, c.shape = [] → d.shape = [] → (arith f c d).shape = [] := by
    intro f c d hc hd
    show joinShape c.shape d.shape = []
    rw [hc, hd]; rfl
  have e3 : (arith (· * ·) (ofFn [] fun _ => (2 : ℝ)) a).shape = [] := h0 rfl ha
  have e4 := h0 (f := (· * ·)) e3 ha
  have e6 : (arith (· * ·) (ofFn [] fun _ => (3 : ℝ)) b).shape = [] := h0 rfl hb
  have e7 := h0 (f := (· + ·)) e4 e6
  refine ⟨⟨⟨⟨⟨⟨⟨⟨⟨⟨trivial, ?_⟩, ?_⟩, trivial⟩, hj _ _ rfl ha⟩, hj _ _ e3 ha⟩, trivial⟩, hj _ _ rfl hb⟩, hj _ _ e4 e6⟩, trivial⟩, hj _ _ e7 rfl⟩
  · exact ⟨⟨a, ⟨[], [("y", b)], rfl, by simp⟩, by rw [ha]; exact hacc⟩, .inr (by simp)⟩
  · exact ⟨⟨b, ⟨[("x", a)], [], rfl, by simp⟩, by rw [hb]; exact hacc⟩, .inr (by simp)⟩

theorem readme_scoped : (meaning readmeCalls).wellScoped := by
  simp [meaning, readmeCalls, Meaning.add, leafOf, Stmt.args]
  exact ⟨⟨⟨[.placeholder "y"], .cons rfl .nil, by simp⟩, [.placeholder "x"], .cons rfl .nil, by simp⟩, [.placeholder "x"], .cons rfl .nil, by simp⟩

end Verif.Prog
