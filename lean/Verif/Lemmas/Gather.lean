import Verif.Lemmas.Slices

/-!
# Lemmas on gather and its gradient
-/

namespace Verif.Nd
variable {R : Type}
open Finset

theorem flat_append {s o t p : List Nat} (h : o.length = s.length) : flat (s ++ t) (o ++ p) = flat s o * size t + flat t p := by
  induction s generalizing o with
  | nil => simp at h; subst h; simp [flat]
  | cons n s ih =>
    cases o with
    | nil => simp at h
    | cons a o =>
      simp only [List.length_cons, Nat.add_right_cancel_iff] at h
      simp only [List.cons_append, flat, ih h, size_append]
      ring

/-- Merging the dimensions of the middle part into one keeps row-major positions. -/
theorem flat_merge {A I B a i b : List Nat} (ha : a.length = A.length) (hi : i.length = I.length) :
    flat (A ++ I ++ B) (a ++ i ++ b) = flat (A ++ size I :: B) (a ++ flat I i :: b) := by
  rw [List.append_assoc, List.append_assoc, flat_append ha, flat_append hi, flat_append ha, size_append]
  simp only [flat, size]

theorem size_merge (A I B : List Nat) : size (A ++ I ++ B) = size (A ++ size I :: B) := by
  simp only [size_append, size]; ring

theorem toList_getElem {a : Arr R} {i : List Nat} (hi : InB i a.shape) : (toList a)[flat a.shape i]? = some (a.get i) := by
  simp [toList, flat_lt hi, unflat_flat hi]

theorem toList_length (a : Arr R) : (toList a).length = size a.shape := by simp [toList]

theorem split_shape {s : List Nat} {k n : Nat} (h : s[k]? = some n) : s = s.take k ++ n :: s.drop (k + 1) ∧ k < s.length := by
  have hk : k < s.length := by by_contra hc; rw [List.getElem?_eq_none (by omega)] at h; cases h
  rw [List.getElem?_eq_getElem hk] at h
  cases h
  exact ⟨by rw [List.cons_getElem_drop_succ, List.take_append_drop], hk⟩

theorem set_append_cons {α : Type} {a b : List α} {k : Nat} (ha : a.length = k) (c d : α) : (a ++ c :: b).set k d = a ++ d :: b := by
  subst ha; exact set_mid a c d b

theorem getD_append_cons {a b : List Nat} {k : Nat} (ha : a.length = k) (c : Nat) : (a ++ c :: b).getD k 0 = c := by
  subst ha; simp [List.getD_eq_getElem?_getD]

theorem inB_append {a s b t : List Nat} (h : InB a s) (h' : InB b t) : InB (a ++ b) (s ++ t) := List.rel_append h h'

/-- The elements of the gathered array. -/
theorem gather_of_flat {param : Arr R} {indices : Arr Int} {axis : Int} {k n : Nat} {norm : Bool} {fl : List Nat}
    (hk : AxisIs param.shape.length axis k) (hn : param.shape[k]? = some n) (hfl : flatIndices norm n indices = .ok fl)
    (hlen : fl.length = size indices.shape) (hne : 0 < size indices.shape) (hlt : ∀ i ∈ fl, i < n) :
    ∃ y, gather norm param indices axis = .ok y ∧ y.shape = param.shape.take k ++ indices.shape ++ param.shape.drop (k + 1) ∧
      ∀ a i b, InB a (param.shape.take k) → InB i indices.shape → InB b (param.shape.drop (k + 1)) →
        y.get (a ++ i ++ b) = param.get (a ++ fl.getD (flat indices.shape i) 0 :: b) := by
  obtain ⟨hsplit, hkl⟩ := split_shape hn
  have hset : param.shape.set k fl.length = param.shape.take k ++ size indices.shape :: param.shape.drop (k + 1) := by
    conv_lhs => rw [hsplit]
    rw [set_append_cons (by simp; omega), hlen]
  have hsz : size (param.shape.take k ++ indices.shape ++ param.shape.drop (k + 1)) = size (param.shape.set k fl.length) := by
    rw [hset, size_merge]
  have hsel : select param k fl = .ok (ofFn (param.shape.set k fl.length) (fun o => param.get (o.set k (fl.getD (o.getD k 0) 0)))) := by
    rw [select, hn]
    simp only
    rw [if_pos ⟨by intro h; rw [h] at hlen; simp at hlen; omega, hlt⟩]
  let sel : Arr R := ofFn (param.shape.set k fl.length) (fun o => param.get (o.set k (fl.getD (o.getD k 0) 0)))
  let T := param.shape.take k ++ indices.shape ++ param.shape.drop (k + 1)
  have hinto : intoShape sel T = some ⟨T, cStrides T, fun idx => sel.get (unflat sel.shape (flat T idx))⟩ :=
    intoShape_standard (isStandard_cStrides _) hsz
  refine ⟨⟨T, cStrides T, fun idx => sel.get (unflat sel.shape (flat T idx))⟩, ?_, rfl, fun a i b ha hi hb => ?_⟩
  · rw [gather, normAxis_ok hk]
    simp only
    rw [hn]
    simp only [hfl, bind, Except.bind, hsel]
    show unwrap (intoShape sel T) = _
    rw [hinto]; rfl
  · have hal : a.length = k := by rw [inB_length ha]; simp; omega
    show sel.get (unflat (param.shape.set k fl.length) (flat T (a ++ i ++ b))) = _
    rw [show flat T (a ++ i ++ b) = flat (param.shape.set k fl.length) (a ++ flat indices.shape i :: b) by
      rw [hset]; exact flat_merge (inB_length ha) (inB_length hi)]
    rw [unflat_flat (by rw [hset]; exact inB_append ha (.cons (flat_lt hi) hb))]
    show param.get ((a ++ flat indices.shape i :: b).set k _) = _
    rw [getD_append_cons hal, set_append_cons hal]

theorem forall₂_of_toList {α β : Type} {Q : α → β → Prop} {a : Arr α} (sel : List Nat → β) (h : ∀ i, InB i a.shape → Q (a.get i) (sel i)) :
    List.Forall₂ Q (toList a) ((List.range (size a.shape)).map (fun t => sel (unflat a.shape t))) := by
  unfold toList
  rw [List.forall₂_map_left_iff, List.forall₂_map_right_iff, List.forall₂_same]
  intro t ht
  exact h _ (inB_unflat (by simpa using ht))

theorem getD_sel {s : List Nat} {i : List Nat} (sel : List Nat → Nat) (hi : InB i s) :
    ((List.range (size s)).map (fun t => sel (unflat s t))).getD (flat s i) 0 = sel i := by
  simp [List.getD_eq_getElem?_getD, flat_lt hi, unflat_flat hi]

/-! ## Memory order -/

theorem layoutLoop_offset {s : List Nat} {st : List Int} {o : List Nat} (hl : st.length = s.length) (ho : InB o s) (c : Int)
    (h : layoutLoop s st c = true) : offset st o = c * offset (fStrides s) o := by
  have key : ∀ (s : List Nat) (st : List Int) (o : List Nat) (c : Int), st.length = s.length → InB o s → layoutLoop s st c = true →
      offset st o = c * (flat s.reverse o.reverse : Int) := by
    intro s
    induction s with
    | nil =>
      intro st o c hl ho _
      simp at ho; subst ho
      cases st <;> simp [offset, flat] at *
    | cons n s ih =>
      intro st o c hl ho h
      cases st with
      | nil => simp at hl
      | cons t st =>
        cases o with
        | nil => exact absurd (inB_length ho) (by simp)
        | cons a o =>
          obtain ⟨ha, ho'⟩ := List.forall₂_cons.1 ho
          simp only [List.length_cons, Nat.add_right_cancel_iff] at hl
          have hol := inB_length ho'
          rw [List.reverse_cons, List.reverse_cons, flat_append (by simp [hol])]
          simp only [offset, flat, size]
          rw [layoutLoop] at h
          split at h
          · rename_i h1
            subst h1
            have : a = 0 := by omega
            subst this
            rw [ih st o c hl ho' h]; push_cast; ring
          · simp only [Bool.and_eq_true, decide_eq_true_eq] at h
            rw [ih st o (c * n) hl ho' h.2, h.1]; push_cast; ring
  have hrev : layoutLoop s (fStrides s) 1 = true := by
    have := layoutLoop_cStrides s.reverse
    rwa [List.reverse_reverse] at this
  rw [key s st o c hl ho h, key s (fStrides s) o 1 (by simp [fStrides, cStrides_length]) ho hrev, one_mul]

theorem offset_standard {s : List Nat} {st : List Int} {o : List Nat} (hl : st.length = s.length) (ho : InB o s)
    (h : isStandard s st = true) : offset st o = flat s o := by
  have hpos : s.any (· == 0) = false := by
    rw [List.any_eq_false]
    intro n hn h0
    have h0 : n = 0 := by simpa using h0
    subst h0
    have := size_pos_of_inB ho
    rw [size_eq_prod, List.prod_eq_zero hn] at this
    omega
  simp only [isStandard, hpos, Bool.false_or] at h
  -- by induction from the back
  have offset_append : ∀ (st st' : List Int) (o o' : List Nat), st.length = o.length → offset (st ++ st') (o ++ o') = offset st o + offset st' o' := by
    intro st
    induction st with
    | nil => intro st' o o' hl; have : o = [] := List.length_eq_zero_iff.1 (by simpa using hl.symm)
             subst this; simp [offset]
    | cons a st ih =>
      intro st' o o' hl
      cases o with
      | nil => simp at hl
      | cons b o => simp only [List.cons_append, offset, ih st' o o' (by simpa using hl)]; ring
  have offset_reverse : ∀ (st : List Int) (o : List Nat), st.length = o.length → offset st.reverse o.reverse = offset st o := by
    intro st
    induction st with
    | nil => intro o hl; have : o = [] := List.length_eq_zero_iff.1 (by simpa using hl.symm)
             subst this; rfl
    | cons a st ih =>
      intro o hl
      cases o with
      | nil => simp at hl
      | cons b o =>
        simp only [List.length_cons, Nat.add_right_cancel_iff] at hl
        rw [List.reverse_cons, List.reverse_cons, offset_append _ _ _ _ (by simp [hl]), ih o hl]
        simp [offset]; ring
  have hol := inB_length ho
  have h1 := layoutLoop_offset (s := s.reverse) (st := st.reverse) (o := o.reverse) (by simp [hl]) (inB_reverse.2 ho) 1 h
  have h2 := layoutLoop_offset (s := s.reverse) (st := (cStrides s).reverse) (o := o.reverse) (by simp [cStrides_length]) (inB_reverse.2 ho) 1
    (layoutLoop_cStrides s)
  have h3 : offset st o = offset (cStrides s) o := by
    rw [← offset_reverse st o (by omega), ← offset_reverse (cStrides s) o (by rw [cStrides_length]; omega), h1, h2]
  rw [h3]
  have key : ∀ (s o : List Nat), InB o s → offset (cStrides s) o = flat s o := by
    intro s
    induction s with
    | nil => intro o ho; simp at ho; subst ho; rfl
    | cons n s ih =>
      intro o ho
      cases o with
      | nil => exact absurd (inB_length ho) (by simp)
      | cons a o =>
        obtain ⟨_, ho'⟩ := List.forall₂_cons.1 ho
        simp only [cStrides, offset, flat, ih o ho']; push_cast; ring
  exact key s o ho

/-- If the elements follow each other in memory, memory order is logical order. -/
theorem memList_of {a : Arr R} (ho : ∀ q, q < size a.shape → offset a.strides (unflat a.shape q) = (q : Int)) : memList a = toList a := by
  have hfind : ∀ p ∈ List.range (size a.shape),
      (((List.range (size a.shape)).map (unflat a.shape)).find? (fun o => offset a.strides o == (p : Int))) = some (unflat a.shape p) := by
    intro p hp
    have hp' : p < size a.shape := by simpa using hp
    rw [List.find?_map]
    have : (List.range (size a.shape)).find? ((fun o => offset a.strides o == (p : Int)) ∘ unflat a.shape) = some p := by
      rw [List.find?_eq_some_iff_append]
      refine ⟨?_, List.range p, (List.range (size a.shape - p - 1)).map (fun j => p + 1 + j), ?_, ?_⟩
      · simp [ho p hp']
      · have e1 : List.range (size a.shape) = List.range (p + (1 + (size a.shape - p - 1))) := by congr 1; omega
        rw [e1, List.range_add, List.range_add]
        simp [Nat.add_assoc]
      · intro q hq
        have hq' : q < p := by simpa using hq
        have hqs : q < size a.shape := by omega
        simp only [Function.comp, ho q hqs, Bool.not_eq_true', beq_eq_false_iff_ne]
        omega
    rw [this]; rfl
  have hmap : ∀ l : List Nat, (∀ p ∈ l, p ∈ List.range (size a.shape)) →
      l.mapM (fun (p : Nat) => ((List.range (size a.shape)).map (unflat a.shape)).find? (fun o => offset a.strides o == (p : Int)))
        = some (l.map (unflat a.shape)) := by
    intro l
    induction l with
    | nil => intro _; rfl
    | cons p l ih =>
      intro hl'
      rw [List.mapM_cons, hfind p (hl' p (by simp)), ih (fun q hq => hl' q (by simp [hq]))]
      rfl
  unfold memList
  simp only
  rw [hmap _ (fun p hp => hp)]
  simp [toList]

/-! ## The gradient -/

/-- For a row-major array, memory order is logical order. -/
theorem memList_standard {a : Arr R} (hl : a.strides.length = a.shape.length) (h : isStandard a.shape a.strides = true) : memList a = toList a :=
  memList_of fun q hq => by rw [offset_standard hl (inB_unflat hq) h, flat_unflat hq]

theorem mapM_none {α β : Type} {f : α → Option β} : ∀ {l : List α} {a : α}, a ∈ l → f a = none → l.mapM f = none
  | b :: l, a, ha, h => by
    rw [List.mapM_cons]
    rcases List.mem_cons.1 ha with rfl | ha
    · rw [h]; rfl
    · rw [mapM_none ha h]
      cases f b <;> rfl

/-- For a vector or a column, memory order is logical order. -/
theorem memList_col {a : Arr R} {m : Nat} (h : a.shape = [m] ∨ a.shape = [m, 1]) : memList a = toList a := by
  have hsz : size a.shape = m := by rcases h with h | h <;> simp [h, size]
  have ho : ∀ q, q < size a.shape → offset a.strides (unflat a.shape q) = a.strides.headD 0 * (q : Int) := by
    intro q hq
    have hb := inB_unflat hq
    have hf := flat_unflat hq
    generalize unflat a.shape q = o at hb hf
    rcases h with h | h
    · rw [h] at hb hf
      match o, hb with
      | [i], hb =>
        have : i = q := by simpa [flat, size] using hf
        subst this
        cases a.strides with
        | nil => simp [offset]
        | cons s ss => cases ss <;> simp [offset]
    · rw [h] at hb hf
      match o, hb with
      | [i, j], hb =>
        have hj : j = 0 := by have : j < 1 := by simp [InB] at hb; omega
                              omega
        subst hj
        have : i = q := by simpa [flat, size] using hf
        subst this
        match a.strides with
        | [] => simp [offset]
        | [s] => simp [offset]
        | s :: t :: ss => cases ss <;> simp [offset]
  by_cases h1 : a.strides.headD 0 = 1
  · exact memList_of fun q hq => by rw [ho q hq, h1, one_mul]
  · by_cases h2 : size a.shape ≤ 1
    · refine memList_of fun q hq => ?_
      have : q = 0 := by omega
      rw [ho q hq, this]; simp
    · unfold memList
      dsimp only
      rw [mapM_none (a := 1) (by simp; omega)]
      rw [List.find?_eq_none]
      intro o hm
      obtain ⟨q, hq, rfl⟩ := List.mem_map.1 hm
      rw [ho q (by simpa using hq)]
      simp only [Nat.cast_one, beq_iff_eq]
      intro he
      rcases Int.eq_one_or_neg_one_of_mul_eq_one he with h3 | h3
      · exact h1 h3
      · rw [h3] at he; omega

theorem gatherAdd_spec [AddCommMonoid R] (k : Nat) (gy : Arr R) (ps : List Nat) (j : Nat) (g : List Nat → R) (o : List Nat) :
    gatherAdd k gy ps j g o = g o + ∑ t ∈ (range ps.length).filter (fun t => ps.getD t 0 = o.getD k 0), gy.get (o.set k (j + t)) := by
  induction ps generalizing j g with
  | nil => simp [gatherAdd]
  | cons p ps ih =>
    rw [gatherAdd, ih]
    simp only [sum_filter, List.length_cons]
    rw [sum_range_succ']
    simp only [List.getD_cons_succ, List.getD_cons_zero, Nat.add_zero]
    have e : ∀ t, j + 1 + t = j + (t + 1) := fun t => by omega
    simp only [e]
    by_cases h : o.getD k 0 = p
    · rw [if_pos h, if_pos h.symm]
      rw [add_assoc, add_comm (gy.get (o.set k j))]
    · rw [if_neg h, if_neg (fun h' => h h'.symm), add_zero]

theorem gatherPos_ok {n p : Nat} {i : Int} (h : AxisIs n i p) (hi : i ≠ -1) : gatherPos n i = .ok p := by
  obtain ⟨hp, h⟩ := h
  have e1 : absIndex n i = some p := by
    unfold absIndex
    rcases h with rfl | rfl
    · rw [if_neg (by omega)]; simp
    · rw [if_pos (by omega), if_neg (by omega)]; congr 1; omega
  have e2 : absIndex n (i + 1) = some (p + 1) := by
    unfold absIndex
    rcases h with rfl | rfl
    · rw [if_neg (by omega)]; congr 1
    · rw [if_pos (by omega), if_neg (by omega)]; congr 1; omega
  have : sliceBounds n ⟨i, some (i + 1)⟩ = .ok (p, 1) := by
    simp only [sliceBounds, Option.getD_some, e1, e2]
    rw [if_pos ⟨by omega, by omega⟩]
    congr 2; omega
  simp [gatherPos, this, bind, Except.bind]

end Verif.Nd

namespace Verif.Nd

theorem normAxes_no_opError (n : Nat) (l : List Int) : normAxes n l ≠ .error .opError := by
  induction l with
  | nil => simp [normAxes]
  | cons a l ih =>
    rw [normAxes]
    by_cases h : a < 0
    · rw [if_pos h]
      by_cases h' : (n : Int) + a < 0
      · rw [if_pos h']; simp [bind, Except.bind]
      · rw [if_neg h']; cases hl : normAxes n l <;> simp_all [bind, Except.bind]
    · rw [if_neg h]; cases hl : normAxes n l <;> simp_all [bind, Except.bind]

end Verif.Nd
