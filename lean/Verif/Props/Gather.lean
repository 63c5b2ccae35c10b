import Verif.Lemmas.GatherGrad

/-!
# C33: gather and its gradient
-/

namespace Verif.Props
open Verif.Nd Finset

/-- A parameter array of shape [3,2] in column-major layout and indices with a repetition and a negative entry, used in the examples. -/
def exPar : Arr ℤ := ⟨[3, 2], [1, 3], fun i => (i.getD 0 0 : ℤ) * 10 + i.getD 1 0⟩
def exIdx : Arr Int := ofFn [2, 2] (fun i => if i = [0, 0] then -2 else if i = [1, 1] then 0 else 1)
def exSel : List Nat → Nat := fun i => if i = [1, 1] then 0 else 1

theorem exIdx_sel : ∀ i, InB i exIdx.shape → AxisIs 3 (exIdx.get i) (exSel i) := by
  intro i hi
  have : i ∈ idxs [2, 2] := mem_idxs.2 hi
  have h4 : idxs [2, 2] = {[0, 0], [0, 1], [1, 0], [1, 1]} := by decide
  rw [h4] at this
  simp only [mem_insert, mem_singleton] at this
  rcases this with rfl | rfl | rfl | rfl
  · exact ⟨by decide, .inr (by decide)⟩
  · exact ⟨by decide, .inl (by decide)⟩
  · exact ⟨by decide, .inl (by decide)⟩
  · exact ⟨by decide, .inl (by decide)⟩

/-- C33 (`gather_common`). `sel i` is the row denoted by the index at position `i`. Full statement: also for empty index arrays, see `C33_empty_violated`. -/
theorem C33_gather_common_partial {R : Type} (param : Arr R) (indices : Arr Int) (axis : Int) (k n : Nat) (sel : List Nat → Nat)
    (hk : AxisIs param.shape.length axis k) (hn : param.shape[k]? = some n) (hne : 0 < indices.shape.prod)
    (hsel : ∀ i, InB i indices.shape → AxisIs n (indices.get i) (sel i)) :
    ∃ y, gather true param indices axis = .ok y ∧ y.shape = param.shape.take k ++ indices.shape ++ param.shape.drop (k + 1) ∧
      ∀ a i b, InB a (param.shape.take k) → InB i indices.shape → InB b (param.shape.drop (k + 1)) →
        y.get (a ++ i ++ b) = param.get (a ++ sel i :: b) :=
  gather_norm_spec param indices axis k n sel hk hn hne hsel

example : AxisIs exPar.shape.length (-2) 0 ∧ exPar.shape[0]? = some 3 ∧ 0 < exIdx.shape.prod ∧
    ∀ i, InB i exIdx.shape → AxisIs 3 (exIdx.get i) (exSel i) := ⟨⟨by decide, .inr (by decide)⟩, by decide, by decide, exIdx_sel⟩

/-- C33 (`gather`, without normalisation of negative indices). Full statement: for all memory layouts of the indices, see `C33_layout_violated`. -/
theorem C33_gather_partial {R : Type} (param : Arr R) (indices : Arr Int) (axis : Int) (k n : Nat) (sel : List Nat → Nat)
    (hk : AxisIs param.shape.length axis k) (hn : param.shape[k]? = some n) (hne : 0 < indices.shape.prod)
    (hsel : ∀ i, InB i indices.shape → indices.get i = sel i ∧ sel i < n)
    (hl : indices.strides.length = indices.shape.length) (hst : isStandard indices.shape indices.strides = true) :
    ∃ y, gather false param indices axis = .ok y ∧ y.shape = param.shape.take k ++ indices.shape ++ param.shape.drop (k + 1) ∧
      ∀ a i b, InB a (param.shape.take k) → InB i indices.shape → InB b (param.shape.drop (k + 1)) →
        y.get (a ++ i ++ b) = param.get (a ++ sel i :: b) := by
  have hF := forall₂_of_toList (Q := fun (z : Int) (p : Nat) => (if z < 0 then .error .panic else .ok z.toNat : Res Nat) = .ok p) sel
    (fun i hi => by rw [(hsel i hi).1, if_neg (by omega)]; simp)
  have hfl : flatIndices false n indices = .ok ((List.range (size indices.shape)).map (fun t => sel (unflat indices.shape t))) := by
    rw [flatIndices, if_neg (by simp), memList_standard hl hst]; exact mapM_forall₂ hF
  obtain ⟨y, hy, hs, hg⟩ := gather_of_flat hk hn hfl (by simp) (by rw [size_eq_prod]; exact hne) (by
    intro p hp
    obtain ⟨t, ht, rfl⟩ := List.mem_map.1 hp
    exact (hsel _ (inB_unflat (by simpa using ht))).2)
  exact ⟨y, hy, hs, fun a i b ha hi hb => by rw [hg a i b ha hi hb, getD_sel sel hi]⟩

/-- Indices without negative entries. -/
def exIdxP : Arr Int := ofFn [2, 2] (fun i => (exSel i : Int))

example : AxisIs exPar.shape.length (-2) 0 ∧ exPar.shape[0]? = some 3 ∧ 0 < exIdxP.shape.prod ∧
    (∀ i, InB i exIdxP.shape → exIdxP.get i = exSel i ∧ exSel i < 3) ∧ exIdxP.strides.length = exIdxP.shape.length ∧
    isStandard exIdxP.shape exIdxP.strides = true :=
  ⟨⟨by decide, .inr (by decide)⟩, by decide, by decide, fun i _ => ⟨rfl, by unfold exSel; split <;> decide⟩, by decide, by decide⟩

/-- C33 is violated: an index array in column-major layout (for example a transposed one) is read in memory order: row `[0,1]` of the indices
selects what position `[1,0]` asks for. -/
theorem C33_layout_violated :
    ∃ y, gather false (ofFn [4] (fun i => (i.getD 0 0 : ℤ))) ⟨[2, 2], [1, 2], fun i => (i.getD 0 0 * 2 + i.getD 1 0 : Int)⟩ 0 = .ok y ∧
      y.shape = [2, 2] ∧ y.get [0, 1] = 2 := ⟨_, rfl, rfl, by decide⟩

/-- C33 is violated: an empty index array panics, for every array and every valid axis. -/
theorem C33_empty_violated {R : Type} (param : Arr R) (indices : Arr Int) (axis : Int) (k n : Nat)
    (hk : AxisIs param.shape.length axis k) (hn : param.shape[k]? = some n) (h0 : indices.shape.prod = 0) :
    gather true param indices axis = .error .panic := by
  have ht : toList indices = [] := List.length_eq_zero_iff.1 (by rw [toList_length, size_eq_prod, h0])
  rw [gather, normAxis_ok hk]
  simp only
  rw [hn]
  simp only [flatIndices, if_true, ht, normAxes, bind, Except.bind, select, hn]
  simp

example : AxisIs exPar.shape.length (-2) 0 ∧ exPar.shape[0]? = some 3 ∧ (ofFn [0] (fun _ => 0) : Arr Int).shape.prod = 0 :=
  ⟨⟨by decide, .inr (by decide)⟩, by decide, by decide⟩

/-- C33: an index out of range always panics. -/
theorem C33_out_of_range {R : Type} (param : Arr R) (indices : Arr Int) (axis : Int) (k n : Nat)
    (hk : AxisIs param.shape.length axis k) (hn : param.shape[k]? = some n) (i : List Nat) (hi : InB i indices.shape)
    (hbad : ∀ p, ¬ AxisIs n (indices.get i) p) : gather true param indices axis = .error .panic := by
  rw [gather, normAxis_ok hk]
  simp only
  rw [hn]
  simp only [flatIndices, if_true]
  have hmem : indices.get i ∈ toList indices := List.mem_of_getElem? (toList_getElem hi)
  -- either the normalisation or the selection panics
  have key : ∀ l : List Int, indices.get i ∈ l → normAxes n l = .error .panic ∨ ∃ ks, normAxes n l = .ok ks ∧ ∃ p ∈ ks, ¬ p < n := by
    intro l
    induction l with
    | nil => intro h; cases h
    | cons a l ih =>
      intro h
      simp only [normAxes]
      rcases List.mem_cons.1 h with rfl | h
      · by_cases hneg : indices.get i < 0
        · have : (n : Int) + indices.get i < 0 := by
            by_contra hc
            exact hbad ((n : Int) + indices.get i).toNat ⟨by omega, .inr (by omega)⟩
          left; simp [hneg, this, bind, Except.bind]
        · have hge : ¬ (indices.get i).toNat < n := fun hc => hbad (indices.get i).toNat ⟨hc, .inl (by omega)⟩
          cases hl : normAxes n l with
          | error e =>
            have : e = .panic := by cases e; rfl; exact absurd hl (normAxes_no_opError n l)
            subst this
            left; simp [hneg, bind, Except.bind]
          | ok ks => right; exact ⟨_, by simp [hneg, bind, Except.bind]; rfl, _, by simp, hge⟩
      · rcases ih h with hl | ⟨ks, hl, p, hp, hpn⟩
        · left
          rw [hl]
          split
          · split <;> rfl
          · rfl
        · rw [hl]
          by_cases hneg : a < 0
          · by_cases hneg' : (n : Int) + a < 0
            · left; simp [hneg, hneg', bind, Except.bind]
            · right; exact ⟨_, by simp [hneg, hneg', bind, Except.bind]; rfl, p, by simp [hp], hpn⟩
          · right; exact ⟨_, by simp [hneg, bind, Except.bind]; rfl, p, by simp [hp], hpn⟩
  rcases key _ hmem with h | ⟨ks, h, p, hp, hpn⟩
  · simp [h, bind, Except.bind]
  · have : select param k ks = .error .panic := by
      rw [select, hn]
      simp only
      rw [if_neg (fun hc => hpn (hc.2 p hp))]
    simp [h, bind, Except.bind, this]

example : AxisIs exPar.shape.length 0 0 ∧ exPar.shape[0]? = some 3 ∧ InB [1] (ofFn [2] (fun i => (i.getD 0 0 : Int) * 3) : Arr Int).shape ∧
    ∀ p, ¬ AxisIs 3 ((ofFn [2] (fun i => (i.getD 0 0 : Int) * 3) : Arr Int).get [1]) p :=
  ⟨⟨by decide, .inl (by decide)⟩, by decide, by decide, fun p h => by
    obtain ⟨h1, h2⟩ := h
    simp [ofFn] at h2
    omega⟩

/-- C33 (gradient). Full statement: for all axes, indices and memory layouts of the incoming gradient. Proved for non-negative axes, indices other than
-1 and a row-major incoming gradient (or indices of shape `[m]` or `[m, 1]` and a gradient in row- or column-major layout); see the `_violated` theorems for the rest.
The elements: the sum of the incoming gradients of all positions that selected the row. -/
theorem C33_gradient_elements_partial {R : Type} [AddCommMonoid R] (param gy : Arr R) (indices : Arr Int) (k n : Nat) (sel : List Nat → Nat)
    (hn : param.shape[k]? = some n)
    (hsel : ∀ i, InB i indices.shape → AxisIs n (indices.get i) (sel i) ∧ indices.get i ≠ -1)
    (hgy : gy.shape = param.shape.take k ++ indices.shape ++ param.shape.drop (k + 1))
    (hl : isStandard gy.shape gy.strides = true ∨ (indices.shape.length = 1 ∨ ∃ m, indices.shape = [m, 1]) ∧ Contig gy.shape gy.strides) :
    ∃ g, gatherGrad param.shape indices k gy = .ok g ∧ g.shape = param.shape ∧
      ∀ a p b, InB a (param.shape.take k) → p < n → InB b (param.shape.drop (k + 1)) →
        g.get (a ++ p :: b) = ∑ i ∈ (idxs indices.shape).filter (fun i => sel i = p), gy.get (a ++ i ++ b) :=
  gatherGrad_elements param gy indices k n sel hn hsel hgy hl

/-- Indices without -1 and an incoming gradient. -/
def exGyG : Arr ℤ := ofFn [2, 2, 2] (fun i => (i.getD 0 0 : ℤ) * 100 + i.getD 1 0 * 10 + i.getD 2 0)

theorem exIdx_ne : ∀ i, InB i exIdx.shape → AxisIs 3 (exIdx.get i) (exSel i) ∧ exIdx.get i ≠ -1 := fun i hi => ⟨exIdx_sel i hi, by
  show (if i = [0, 0] then (-2 : Int) else if i = [1, 1] then 0 else 1) ≠ -1
  split
  · decide
  · split <;> decide⟩

example : exPar.shape[0]? = some 3 ∧ (∀ i, InB i exIdx.shape → AxisIs 3 (exIdx.get i) (exSel i) ∧ exIdx.get i ≠ -1) ∧
    exGyG.shape = exPar.shape.take 0 ++ exIdx.shape ++ exPar.shape.drop 1 ∧ isStandard exGyG.shape exGyG.strides = true :=
  ⟨by decide, exIdx_ne, by decide, by decide⟩

/-- C33: the gradient is the adjoint of `gather_common`, under the hypotheses of `C33_gradient_elements_partial`. -/
theorem C33_gradient_partial {R : Type} [CommSemiring R] (param gy : Arr R) (indices : Arr Int) (k n : Nat) (sel : List Nat → Nat)
    (hn : param.shape[k]? = some n) (hne : 0 < indices.shape.prod)
    (hsel : ∀ i, InB i indices.shape → AxisIs n (indices.get i) (sel i) ∧ indices.get i ≠ -1)
    (hgy : gy.shape = param.shape.take k ++ indices.shape ++ param.shape.drop (k + 1))
    (hl : isStandard gy.shape gy.strides = true ∨ (indices.shape.length = 1 ∨ ∃ m, indices.shape = [m, 1]) ∧ Contig gy.shape gy.strides) :
    ∃ g, gatherGrad param.shape indices k gy = .ok g ∧ g.shape = param.shape ∧ ∀ dx : Arr R, dx.shape = param.shape →
      ∃ dy, gather true dx indices k = .ok dy ∧
        ∑ j ∈ idxs gy.shape, gy.get j * dy.get j = ∑ o ∈ idxs param.shape, g.get o * dx.get o :=
  gatherGrad_adjoint param gy indices k n sel hn hne hsel hgy hl

example : exPar.shape[0]? = some 3 ∧ 0 < exIdx.shape.prod ∧ (∀ i, InB i exIdx.shape → AxisIs 3 (exIdx.get i) (exSel i) ∧ exIdx.get i ≠ -1) ∧
    exGyG.shape = exPar.shape.take 0 ++ exIdx.shape ++ exPar.shape.drop 1 ∧ isStandard exGyG.shape exGyG.strides = true :=
  ⟨by decide, by decide, exIdx_ne, by decide, by decide⟩

/-- C33 is violated: for a negative axis (accepted by the forward op, see `C33_gather_common_partial`) the gradient always panics. -/
theorem C33_gradient_axis_violated {R : Type} [AddCommMonoid R] (pshape : List Nat) (gy : Arr R) (indices : Arr Int) (axis : Int)
    (hneg : axis < 0) : gatherGrad pshape indices axis gy = .error .panic := by
  rw [gatherGrad, if_pos hneg]

example : AxisIs exPar.shape.length (-2) 0 ∧ (-2 : Int) < 0 := ⟨⟨by decide, .inr (by decide)⟩, by decide⟩

/-- C33 is violated: the index -1 (the last row, accepted by `gather_common`) makes the gradient panic. -/
theorem C33_gradient_index_violated :
    (∃ y, gather true (ofFn [2] (fun _ => (5 : ℤ))) (ofFn [1] (fun _ => -1)) 0 = .ok y ∧ y.get [0] = 5) ∧
    gatherGrad [2] (ofFn [1] (fun _ => -1)) 0 (ofFn [1] (fun _ => (1 : ℤ))) = .error .panic := ⟨⟨_, rfl, rfl⟩, rfl⟩

/-- C33 is violated: with a column-major incoming gradient and an index array of rank 2 the gradient goes to the wrong rows (here the gradient of the
position that selected row 1 should be 7, which arrives at row 2). -/
theorem C33_gradient_layout_violated :
    ∃ g, gatherGrad [4] (ofFn [2, 2] (fun i => (i.getD 0 0 * 2 + i.getD 1 0 : Int))) 0
        (⟨[2, 2], [1, 2], fun i => if i = [0, 1] then 7 else 0⟩ : Arr ℤ) = .ok g ∧ g.get [1] = 0 ∧ g.get [2] = 7 :=
  ⟨_, rfl, by decide, by decide⟩

end Verif.Props
