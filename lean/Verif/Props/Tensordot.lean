import Verif.Lemmas.Tensordot
import Verif.Props.Rearrange
import Verif.Props.MatMul

/-!
# C40: tensordot
-/

namespace Verif.Props
open Verif.Nd Finset

/-- An array of shape [2,3,4] in column-major order. -/
def tdA : Arr Int := ⟨[2, 3, 4], [1, 2, 6], fun i => (i.getD 0 0 : Int) * 100 + i.getD 1 0 * 10 + i.getD 2 0⟩
/-- An array of shape [3,5,2]. -/
def tdB : Arr Int := ofFn [3, 5, 2] (fun i => (i.getD 0 0 : Int) - i.getD 1 0 * 2 + i.getD 2 0 * 7)
/-- An incoming gradient of shape [4,5]. -/
def tdG : Arr Int := ofFn [4, 5] (fun i => (i.getD 0 0 : Int) - i.getD 1 0)

/-- The first and second axes of `tdA`, paired with the last and first of `tdB`. -/
theorem tdA_axes : List.Forall₂ (AxisIs tdA.shape.length) [0, -2] [0, 1] :=
  .cons ⟨by decide, .inl rfl⟩ (.cons ⟨by decide, .inr rfl⟩ .nil)
theorem tdB_axes : List.Forall₂ (AxisIs tdB.shape.length) [-1, 0] [2, 0] :=
  .cons ⟨by decide, .inr rfl⟩ (.cons ⟨by decide, .inl rfl⟩ .nil)

/-- C40: for all arrays in all memory layouts and all lists of distinct (possibly negative) axes with matching sizes, the result has the free dimensions of `a`
followed by those of `b`, and its element at `(i, j)` is the sum of `a[oa] * b[ob]` over all pairs of positions whose free coordinates are `i` and `j` and
whose contracted coordinates agree. -/
theorem C40_tensordot {R : Type} [NonUnitalNonAssocSemiring R] (a b : Arr R) (aAxes bAxes : List Int) (ka kb : List Nat)
    (ha : List.Forall₂ (AxisIs a.shape.length) aAxes ka) (hb : List.Forall₂ (AxisIs b.shape.length) bAxes kb) (hna : ka.Nodup) (hnb : kb.Nodup)
    (hd : ka.map (fun k => a.shape.getD k 0) = kb.map (fun k => b.shape.getD k 0)) :
    ∃ y, tensordot a b aAxes bAxes = .ok y ∧ y.shape = dropAt ka 0 a.shape ++ dropAt kb 0 b.shape ∧
      ∀ i, InB i (dropAt ka 0 a.shape) → ∀ j, InB j (dropAt kb 0 b.shape) →
        y.get (i ++ j) = ∑ oa ∈ (idxs a.shape).filter (fun o => dropAt ka 0 o = i),
          ∑ ob ∈ (idxs b.shape).filter (fun o => dropAt kb 0 o = j ∧ kb.map (fun k => o.getD k 0) = ka.map (fun k => oa.getD k 0)), a.get oa * b.get ob := by
  have hla := axes_lt ha
  have hlb := axes_lt hb
  obtain ⟨ta, ra, tb, rb, hp, -, -, -, -, -, -, hra, hrb, ga, gb⟩ := tensordotParts_ok ha hb hna hnb
  obtain ⟨mm, hmm, hms, hmg⟩ := matMulArr_spec ra rb (size (dropAt ka 0 a.shape)) (size (ka.map (fun k => a.shape.getD k 0))) (size (dropAt kb 0 b.shape)) hra
    (by rw [hrb, hd])
  obtain ⟨y, hy, hys, hyg⟩ := reshape_ok (x := mm) (reshapesTo_shape (dropAt ka 0 a.shape ++ dropAt kb 0 b.shape) mm.shape (by rw [hms, size_append]; simp [size]))
  refine ⟨y, ?_, hys, fun i hi j hj => ?_⟩
  · simp only [tensordot, hp, hmm, bind, Except.bind]
    exact hy
  · have hfi := flat_lt hi
    have hfj := flat_lt hj
    have hb2 : InB [flat (dropAt ka 0 a.shape) i, flat (dropAt kb 0 b.shape) j] mm.shape := by rw [hms]; exact .cons hfi (.cons hfj .nil)
    have e : flat (dropAt ka 0 a.shape ++ dropAt kb 0 b.shape) (i ++ j) = flat mm.shape [flat (dropAt ka 0 a.shape) i, flat (dropAt kb 0 b.shape) j] := by
      rw [hms, flat_append (inB_length hi)]; simp [flat, size]
    rw [hyg _ (inB_append hi hj), e, unflat_flat hb2, hmg _ hfi _ hfj, sum_flat,
      sum_free hla i (fun oa c => ∑ ob ∈ (idxs b.shape).filter (fun o => dropAt kb 0 o = j ∧ kb.map (fun k => o.getD k 0) = c), a.get oa * b.get ob)]
    refine sum_congr rfl fun c hc => ?_
    have hc := mem_idxs.1 hc
    obtain ⟨oa, hoa, hoa1, hoa2⟩ := index_exists hna hla hi hc
    obtain ⟨ob, hob, hob1, hob2⟩ := index_exists hnb hlb hj (c := c) (by rw [← hd]; exact hc)
    rw [sum_single hna hla hoa hoa1 hoa2, sum_single hnb hlb hob hob1 hob2, ← ga oa hoa, ← gb ob hob, hoa1, hoa2, hob1, hob2, ← hd]

example : ∃ y, tensordot tdA tdB [0, -2] [-1, 0] = .ok y ∧ y.shape = [4, 5] :=
  let ⟨y, h, s, _⟩ := C40_tensordot tdA tdB [0, -2] [-1, 0] [0, 1] [2, 0] tdA_axes tdB_axes (by decide) (by decide) rfl
  ⟨y, h, s⟩

/-- C40: contracted dimensions with different products are reported as an error. -/
theorem C40_incompatible {R : Type} [NonUnitalNonAssocSemiring R] (a b : Arr R) (aAxes bAxes : List Int) (ka kb : List Nat)
    (ha : List.Forall₂ (AxisIs a.shape.length) aAxes ka) (hb : List.Forall₂ (AxisIs b.shape.length) bAxes kb) (hna : ka.Nodup) (hnb : kb.Nodup)
    (hd : (ka.map (fun k => a.shape.getD k 0)).prod ≠ (kb.map (fun k => b.shape.getD k 0)).prod) :
    tensordot a b aAxes bAxes = .error .opError := by
  obtain ⟨ta, ra, tb, rb, hp, -, -, -, -, -, -, hra, hrb, -⟩ := tensordotParts_ok ha hb hna hnb
  have : matMulArr ra rb = .error .opError := by
    rw [← size_eq_prod, ← size_eq_prod] at hd
    exact C39_matmul_inner false false (toView ra) (toView rb) _ _ _ _ (by simp [toView, cStrides_length, hra]) (by simp [toView, cStrides_length, hrb]) hra hrb hd
  simp only [tensordot, hp, this, bind, Except.bind]

example : tensordot tdA tdB [0, -2] [0, 1] = .error .opError :=
  C40_incompatible tdA tdB [0, -2] [0, 1] [0, 1] [0, 1] tdA_axes (.cons ⟨by decide, .inl rfl⟩ (.cons ⟨by decide, .inl rfl⟩ .nil)) (by decide) (by decide) (by decide)

/-- C40: what happens for paired axes of different sizes whose products are equal (for example sizes 2 and 3 paired with 3 and 2): no error is reported. The contracted axes of each operand
are counted in row-major order, and elements with the same number are paired, although their coordinates differ. -/
theorem C40_equal_products {R : Type} [NonUnitalNonAssocSemiring R] (a b : Arr R) (aAxes bAxes : List Int) (ka kb : List Nat)
    (ha : List.Forall₂ (AxisIs a.shape.length) aAxes ka) (hb : List.Forall₂ (AxisIs b.shape.length) bAxes kb) (hna : ka.Nodup) (hnb : kb.Nodup)
    (hd : (ka.map (fun k => a.shape.getD k 0)).prod = (kb.map (fun k => b.shape.getD k 0)).prod) :
    ∃ y, tensordot a b aAxes bAxes = .ok y ∧ y.shape = dropAt ka 0 a.shape ++ dropAt kb 0 b.shape ∧
      ∀ i, InB i (dropAt ka 0 a.shape) → ∀ j, InB j (dropAt kb 0 b.shape) →
        y.get (i ++ j) = ∑ oa ∈ (idxs a.shape).filter (fun o => dropAt ka 0 o = i),
          ∑ ob ∈ (idxs b.shape).filter (fun o => dropAt kb 0 o = j ∧ flat (kb.map (fun k => b.shape.getD k 0)) (kb.map (fun k => o.getD k 0)) =
            flat (ka.map (fun k => a.shape.getD k 0)) (ka.map (fun k => oa.getD k 0))), a.get oa * b.get ob := by
  have hla := axes_lt ha
  have hlb := axes_lt hb
  rw [← size_eq_prod, ← size_eq_prod] at hd
  obtain ⟨ta, ra, tb, rb, hp, -, -, -, -, -, -, hra, hrb, ga, gb⟩ := tensordotParts_ok ha hb hna hnb
  obtain ⟨mm, hmm, hms, hmg⟩ := matMulArr_spec ra rb (size (dropAt ka 0 a.shape)) (size (ka.map (fun k => a.shape.getD k 0))) (size (dropAt kb 0 b.shape)) hra
    (by rw [hrb, hd])
  obtain ⟨y, hy, hys, hyg⟩ := reshape_ok (x := mm) (reshapesTo_shape (dropAt ka 0 a.shape ++ dropAt kb 0 b.shape) mm.shape (by rw [hms, size_append]; simp [size]))
  refine ⟨y, ?_, hys, fun i hi j hj => ?_⟩
  · simp only [tensordot, hp, hmm, bind, Except.bind]
    exact hy
  · have hfi := flat_lt hi
    have hfj := flat_lt hj
    have hb2 : InB [flat (dropAt ka 0 a.shape) i, flat (dropAt kb 0 b.shape) j] mm.shape := by rw [hms]; exact .cons hfi (.cons hfj .nil)
    have e : flat (dropAt ka 0 a.shape ++ dropAt kb 0 b.shape) (i ++ j) = flat mm.shape [flat (dropAt ka 0 a.shape) i, flat (dropAt kb 0 b.shape) j] := by
      rw [hms, flat_append (inB_length hi)]; simp [flat, size]
    rw [hyg _ (inB_append hi hj), e, unflat_flat hb2, hmg _ hfi _ hfj, sum_flat,
      sum_free hla i (fun oa c => ∑ ob ∈ (idxs b.shape).filter (fun o => dropAt kb 0 o = j ∧ flat (kb.map (fun k => b.shape.getD k 0)) (kb.map (fun k => o.getD k 0)) =
        flat (ka.map (fun k => a.shape.getD k 0)) c), a.get oa * b.get ob)]
    refine sum_congr rfl fun c hc => ?_
    have hc := mem_idxs.1 hc
    obtain ⟨oa, hoa, hoa1, hoa2⟩ := index_exists hna hla hi hc
    have hlt : flat (ka.map (fun k => a.shape.getD k 0)) c < size (kb.map (fun k => b.shape.getD k 0)) := hd ▸ flat_lt hc
    obtain ⟨ob, hob, hob1, hob2⟩ := index_exists hnb hlb hj (c := unflat _ (flat (ka.map (fun k => a.shape.getD k 0)) c)) (inB_unflat hlt)
    have hfil : (idxs b.shape).filter (fun o => dropAt kb 0 o = j ∧ flat (kb.map (fun k => b.shape.getD k 0)) (kb.map (fun k => o.getD k 0)) =
        flat (ka.map (fun k => a.shape.getD k 0)) c) = (idxs b.shape).filter (fun o => dropAt kb 0 o = j ∧ kb.map (fun k => o.getD k 0) =
        unflat (kb.map (fun k => b.shape.getD k 0)) (flat (ka.map (fun k => a.shape.getD k 0)) c)) := by
      refine filter_congr fun o ho => and_congr_right fun _ => ?_
      have hin : InB (kb.map (fun k => o.getD k 0)) (kb.map (fun k => b.shape.getD k 0)) := inB_axes hlb (mem_idxs.1 ho)
      constructor
      · intro h; rw [← h, unflat_flat hin]
      · intro h; rw [h, flat_unflat hlt]
    rw [sum_single hna hla hoa hoa1 hoa2, hfil, sum_single hnb hlb hob hob1 hob2, ← ga oa hoa, ← gb ob hob, hoa1, hoa2, hob1, hob2, flat_unflat hlt]

/-- Axes of sizes 2, 3 paired with axes of sizes 3, 2. -/
example : ∃ y, tensordot (ofFn [2, 3] (fun i => (i.getD 0 0 : Int))) (ofFn [3, 2] (fun i => (i.getD 0 0 : Int))) [0, 1] [0, 1] = .ok y ∧ y.shape = [] :=
  let ⟨y, h, s, _⟩ := C40_equal_products (ofFn [2, 3] (fun i => (i.getD 0 0 : Int))) (ofFn [3, 2] (fun i => (i.getD 0 0 : Int))) [0, 1] [0, 1] [0, 1] [0, 1]
    (.cons ⟨by decide, .inl rfl⟩ (.cons ⟨by decide, .inl rfl⟩ .nil)) (.cons ⟨by decide, .inl rfl⟩ (.cons ⟨by decide, .inl rfl⟩ .nil)) (by decide) (by decide) rfl
  ⟨y, h, s⟩

/-- C40: an axis given twice is reported as an error. -/
theorem C40_repeated {R : Type} [NonUnitalNonAssocSemiring R] (a b : Arr R) (aAxes bAxes : List Int) (ka kb : List Nat)
    (ha : List.Forall₂ (AxisIs a.shape.length) aAxes ka) (hb : List.Forall₂ (AxisIs b.shape.length) bAxes kb) (hn : ¬ ka.Nodup ∨ ¬ kb.Nodup) :
    tensordot a b aAxes bAxes = .error .opError := by
  have hla := axes_lt ha
  have hlb := axes_lt hb
  have : tensordotParts a b aAxes bAxes = .error .opError := by
    by_cases hna : ka.Nodup
    · obtain ⟨t, r, h1, h2, -⟩ := group_spec a _ _ (free_perm hna hla)
      rw [free_map] at h2
      simp only [tensordotParts, normAxes_spec ha, normAxes_spec hb, tensordotPre_ok hla, tensordotPre_ok hlb, bind, Except.bind, Bool.false_eq_true, if_false, if_true, h1, h2,
        C30_wrong_length b _ false (by rw [List.length_append, Nat.add_comm, ← List.length_append]; exact repeated_length (hn.resolve_left (by simpa using hna)))]
    · simp only [tensordotParts, normAxes_spec ha, normAxes_spec hb, tensordotPre_ok hla, tensordotPre_ok hlb, bind, Except.bind, Bool.false_eq_true, if_false,
        C30_wrong_length a _ false (repeated_length hna)]
  simp only [tensordot, this, bind, Except.bind]

example : tensordot tdA tdB [0, 0] [0, 2] = .error .opError :=
  C40_repeated tdA tdB [0, 0] [0, 2] [0, 0] [0, 2] (.cons ⟨by decide, .inl rfl⟩ (.cons ⟨by decide, .inl rfl⟩ .nil))
    (.cons ⟨by decide, .inl rfl⟩ (.cons ⟨by decide, .inl rfl⟩ .nil)) (.inl (by decide))

/-- C40 (gradients): for all arrays, layouts and axes as in `C40_tensordot` both gradients have the shape of their operand and are the adjoints of the change
of the result, computed by `tensordot` itself on the changed operand. -/
theorem C40_gradient {R : Type} [CommSemiring R] (a b gy : Arr R) (aAxes bAxes : List Int) (ka kb : List Nat)
    (ha : List.Forall₂ (AxisIs a.shape.length) aAxes ka) (hb : List.Forall₂ (AxisIs b.shape.length) bAxes kb) (hna : ka.Nodup) (hnb : kb.Nodup)
    (hd : ka.map (fun k => a.shape.getD k 0) = kb.map (fun k => b.shape.getD k 0)) (hg : gy.shape = dropAt ka 0 a.shape ++ dropAt kb 0 b.shape) :
    ∃ ga gb, tensordotGrad a b aAxes bAxes gy = .ok (ga, gb) ∧ ga.shape = a.shape ∧ gb.shape = b.shape ∧
      (∀ da : Arr R, da.shape = a.shape → ∃ y, tensordot da b aAxes bAxes = .ok y ∧
        ∑ o ∈ idxs gy.shape, gy.get o * y.get o = ∑ o ∈ idxs a.shape, ga.get o * da.get o) ∧
      (∀ db : Arr R, db.shape = b.shape → ∃ y, tensordot a db aAxes bAxes = .ok y ∧
        ∑ o ∈ idxs gy.shape, gy.get o * y.get o = ∑ o ∈ idxs b.shape, gb.get o * db.get o) := by
  have hla := axes_lt ha
  have hlb := axes_lt hb
  obtain ⟨ta, ra, tb, rb, hp, eta, era, etb, erb, hta, htb, hra, hrb, -, -⟩ := tensordotParts_ok ha hb hna hnb
  obtain ⟨mm, hmm, hms, -⟩ := matMulArr_spec ra rb _ _ _ hra (by rw [hrb, hd])
  have hsz : size (dropAt ka 0 a.shape ++ dropAt kb 0 b.shape) = size mm.shape := by rw [hms, size_append]; simp [size]
  -- the four steps
  obtain ⟨gm, egm, sgm, agm⟩ := C29_gradient mm gy (shapeInts (dropAt ka 0 a.shape ++ dropAt kb 0 b.shape)) _ (reshapesTo_shape _ mm.shape hsz) hg
  have hgms : gm.shape = [size (dropAt ka 0 a.shape), size (dropAt kb 0 b.shape)] := sgm.trans hms
  have l2 : ∀ x : Arr R, x.shape.length = 2 → (toView x).strides.length = 2 := fun x h => by simp [toView, cStrides_length, h]
  have hin : ∀ (s : List Nat) (x z : Arr R), x.shape = s → ∑ o ∈ idxs s, (toView x).arr.get o * z.get o = ∑ o ∈ idxs s, x.get o * z.get o := fun s x z h =>
    sum_congr rfl fun o ho => by rw [toView_get x (by rw [h]; exact mem_idxs.1 ho)]
  have hin' : ∀ (s : List Nat) (x z : Arr R), x.shape = s → ∑ o ∈ idxs s, z.get o * (toView x).arr.get o = ∑ o ∈ idxs s, z.get o * x.get o := fun s x z h =>
    sum_congr rfl fun o ho => by rw [toView_get x (by rw [h]; exact mem_idxs.1 ho)]
  obtain ⟨gra, grb, egra, egrb, sgra, sgrb, aga, agb⟩ := C39_matmul_gradient (toView ra) (toView rb) (toView gm) _ _ _ (l2 ra (by rw [hra]; rfl))
    (l2 rb (by rw [hrb]; rfl)) (l2 gm (by rw [hgms]; rfl)) hra (hrb.trans (by rw [hd])) hgms
  have hszA : size [size (dropAt ka 0 a.shape), size (ka.map (fun k => a.shape.getD k 0))] = size ta.shape := by
    rw [hta, List.map_append, free_map, size_append]; simp [size]
  have hszB : size [size (kb.map (fun k => b.shape.getD k 0)), size (dropAt kb 0 b.shape)] = size tb.shape := by
    rw [htb, List.map_append, free_map, size_append]; simp [size]
  obtain ⟨gta, egta, sgta, agta⟩ := C29_gradient ta gra _ _ (reshapesTo_shape _ ta.shape hszA) (sgra.trans hra)
  obtain ⟨gtb, egtb, sgtb, agtb⟩ := C29_gradient tb grb _ _ (reshapesTo_shape _ tb.shape hszB) (sgrb.trans hrb)
  obtain ⟨ga, ega, sga, aga'⟩ := C30_gradient a gta _ (free_perm hna hla) (sgta.trans hta)
  obtain ⟨gb, egb, sgb, agb'⟩ := C30_gradient b gtb _ (List.perm_append_comm.trans (free_perm hnb hlb)) (sgtb.trans htb)
  refine ⟨ga, gb, ?_, sga, sgb, fun da hda => ?_, fun db hdb => ?_⟩
  · simp only [tensordotGrad, hp, hmm, egm, egra, egrb, egta, egtb, ega, egb, bind, Except.bind]
  · obtain ⟨ta', ra', tb', rb', hp', eta', era', etb', erb', hta', -, hra', -, -⟩ := tensordotParts_ok (a := da) (by rw [hda]; exact ha) hb hna hnb
    rw [hda] at hp' eta' era' hta' hra'
    cases etb.symm.trans etb'
    cases erb.symm.trans erb'
    obtain ⟨t2, et2, at2⟩ := aga' da hda
    cases eta'.symm.trans et2
    obtain ⟨r2, er2, ar2⟩ := agta ta' (hta'.trans hta.symm)
    cases era'.symm.trans er2
    obtain ⟨m2, em2, am2⟩ := aga (toView ra') (hra'.trans hra.symm) (l2 ra' (by rw [hra']; rfl))
    obtain ⟨m3, em3, sm3, -⟩ := matMulArr_spec ra' rb _ _ _ hra' (by rw [hrb, hd])
    cases em3.symm.trans em2
    obtain ⟨y, ey, ay⟩ := agm m2 (sm3.trans hms.symm)
    refine ⟨y, ?_, ?_⟩
    · simp only [tensordot, hp', em3, bind, Except.bind]; exact ey
    · rw [hg, ay, ← at2, sgta, ← ar2, ← hra]
      rw [hin _ gm m2 hgms] at am2
      rw [hms, am2]
      exact hin' _ ra' gra (hra'.trans hra.symm)
  · obtain ⟨ta', ra', tb', rb', hp', eta', era', etb', erb', -, htb', -, hrb', -⟩ := tensordotParts_ok (b := db) ha (by rw [hdb]; exact hb) hna hnb
    rw [hdb] at hp' etb' erb' htb' hrb'
    cases eta.symm.trans eta'
    cases era.symm.trans era'
    obtain ⟨t2, et2, at2⟩ := agb' db hdb
    cases etb'.symm.trans et2
    obtain ⟨r2, er2, ar2⟩ := agtb tb' (htb'.trans htb.symm)
    cases erb'.symm.trans er2
    obtain ⟨m2, em2, am2⟩ := agb (toView rb') (hrb'.trans hrb.symm) (l2 rb' (by rw [hrb']; rfl))
    obtain ⟨m3, em3, sm3, -⟩ := matMulArr_spec ra rb' _ _ _ hra (by rw [hrb', hd])
    cases em3.symm.trans em2
    obtain ⟨y, ey, ay⟩ := agm m2 (sm3.trans hms.symm)
    refine ⟨y, ?_, ?_⟩
    · simp only [tensordot, hp', em3, bind, Except.bind]; exact ey
    · rw [hg, ay, ← at2, sgtb, ← ar2, ← hrb]
      rw [hin _ gm m2 hgms] at am2
      rw [hms, am2]
      exact hin' _ rb' grb (hrb'.trans hrb.symm)

example : ∃ ga gb, tensordotGrad tdA tdB [0, -2] [-1, 0] tdG = .ok (ga, gb) ∧ ga.shape = [2, 3, 4] ∧ gb.shape = [3, 5, 2] :=
  let ⟨ga, gb, h, s, s', _⟩ := C40_gradient tdA tdB tdG [0, -2] [-1, 0] [0, 1] [2, 0] tdA_axes tdB_axes (by decide) (by decide) rfl rfl
  ⟨ga, gb, h, s, s'⟩

end Verif.Props
