import Verif.Lemmas.ArgMax
import Verif.Lemmas.Gather

/-! `gather` with its gradient: the elements of the gradient, and that it is the adjoint. -/

namespace Verif.Nd
open Finset

theorem Sq.refl {s o : List Nat} (h : o.length = s.length) : Sq s o s o := by
  induction s generalizing o with
  | nil => obtain rfl := List.length_eq_zero_iff.1 (by simpa using h); exact .nil
  | cons n s ih =>
    cases o with
    | nil => simp at h
    | cons i o => exact (ih (by simpa using h)).keep n i

/-- `into_shape` that removes dimensions of size 1. -/
theorem intoShape_unsq {R : Type} {a : Arr R} {s : List Nat} (hc : Contig a.shape a.strides) (hs : size s = size a.shape) :
    ∃ r, intoShape a s = some r ∧ r.shape = s ∧ ∀ o o', Sq a.shape o' s o → InB o' a.shape → r.get o = a.get o' := by
  unfold intoShape
  rw [if_pos hs]
  split
  · refine ⟨_, rfl, rfl, fun o o' h hb => ?_⟩
    simp only
    rw [← h.flat, unflat_flat hb]
  · rename_i hn
    have hf : a.shape.length > 1 ∧ isStandard a.shape.reverse a.strides.reverse = true := by
      rcases hc with h | h
      · exact absurd h hn
      · exact h
    rw [if_pos (by simpa using hf)]
    refine ⟨_, rfl, rfl, fun o o' h hb => ?_⟩
    simp only
    rw [← h.reverse.flat, unflat_flat (inB_reverse.2 hb), List.reverse_reverse]

/-- The elements of an array gathered with normalised indices. -/
theorem gather_norm_spec {R : Type} (param : Arr R) (indices : Arr Int) (axis : Int) (k n : Nat) (sel : List Nat → Nat)
    (hk : AxisIs param.shape.length axis k) (hn : param.shape[k]? = some n) (hne : 0 < indices.shape.prod)
    (hsel : ∀ i, InB i indices.shape → AxisIs n (indices.get i) (sel i)) :
    ∃ y, gather true param indices axis = .ok y ∧ y.shape = param.shape.take k ++ indices.shape ++ param.shape.drop (k + 1) ∧
      ∀ a i b, InB a (param.shape.take k) → InB i indices.shape → InB b (param.shape.drop (k + 1)) →
        y.get (a ++ i ++ b) = param.get (a ++ sel i :: b) := by
  have hF := forall₂_of_toList sel hsel
  have hfl : flatIndices true n indices = .ok ((List.range (size indices.shape)).map (fun t => sel (unflat indices.shape t))) := by rw [flatIndices, if_pos rfl]; exact normAxes_spec hF
  obtain ⟨y, hy, hs, hg⟩ := gather_of_flat hk hn hfl (by simp) (by rw [size_eq_prod]; exact hne) (by
    intro p hp
    obtain ⟨t, ht, rfl⟩ := List.mem_map.1 hp
    exact (hsel _ (inB_unflat (by simpa using ht))).1)
  exact ⟨y, hy, hs, fun a i b ha hi hb => by rw [hg a i b ha hi hb, getD_sel sel hi]⟩

/-- The elements of the gradient of `gather`. -/
theorem gatherGrad_elements {R : Type} [AddCommMonoid R] (param gy : Arr R) (indices : Arr Int) (k n : Nat) (sel : List Nat → Nat)
    (hn : param.shape[k]? = some n)
    (hsel : ∀ i, InB i indices.shape → AxisIs n (indices.get i) (sel i) ∧ indices.get i ≠ -1)
    (hgy : gy.shape = param.shape.take k ++ indices.shape ++ param.shape.drop (k + 1))
    (hl : isStandard gy.shape gy.strides = true ∨ (indices.shape.length = 1 ∨ ∃ m, indices.shape = [m, 1]) ∧ Contig gy.shape gy.strides) :
    ∃ g, gatherGrad param.shape indices k gy = .ok g ∧ g.shape = param.shape ∧
      ∀ a p b, InB a (param.shape.take k) → p < n → InB b (param.shape.drop (k + 1)) →
        g.get (a ++ p :: b) = ∑ i ∈ (idxs indices.shape).filter (fun i => sel i = p), gy.get (a ++ i ++ b) := by
  obtain ⟨hsplit, hkl⟩ := split_shape hn
  let S := param.shape.take k ++ size indices.shape :: param.shape.drop (k + 1)
  obtain ⟨g3, hg3, hget⟩ : ∃ g3, intoShape gy S = some g3 ∧ ∀ a i b, InB a (param.shape.take k) → InB i indices.shape →
      InB b (param.shape.drop (k + 1)) → g3.get (a ++ flat indices.shape i :: b) = gy.get (a ++ i ++ b) := by
    rcases hl with hst | ⟨h1 | ⟨m, hm⟩, hc⟩
    · refine ⟨_, intoShape_standard hst (by rw [hgy, size_merge]), fun a i b ha hi hb => ?_⟩
      show gy.get (unflat gy.shape (flat S _)) = _
      rw [← flat_merge (inB_length ha) (inB_length hi), ← hgy, unflat_flat]
      rw [hgy]; exact inB_append (inB_append ha hi) hb
    · obtain ⟨m, hm⟩ := List.length_eq_one_iff.1 h1
      have hS : S = gy.shape := by
        rw [hgy, hm]
        simp [S, hm, size]
      obtain ⟨g3, hg3, hid⟩ := intoShape_id hc hS
      refine ⟨g3, hg3, fun a i b ha hi hb => ?_⟩
      rw [hid]
      · congr 1
        rw [hm] at hi ⊢
        obtain ⟨c, rfl⟩ := List.length_eq_one_iff.1 (inB_length hi)
        simp [flat, size]
      · rw [← hS]
        exact inB_append ha (.cons (flat_lt hi) hb)
    · have hS : size S = size gy.shape := by rw [hgy, size_merge]
      obtain ⟨g3, hg3, _, hget⟩ := intoShape_unsq hc hS
      refine ⟨g3, hg3, fun a i b ha hi hb => hget _ _ ?_ (by rw [hgy]; exact inB_append (inB_append ha hi) hb)⟩
      rw [hgy]
      simp only [S]
      rw [hm] at hi ⊢
      match i, hi with
      | [c, d], hi =>
        obtain rfl : d = 0 := by have := (List.forall₂_cons.1 (List.forall₂_cons.1 hi).2).1; omega
        have e : flat [m, 1] [c, 0] = c := by simp [flat, size]
        have e' : size [m, 1] = m := by simp [size]
        rw [e, e', List.append_assoc, List.append_assoc]
        exact (Sq.refl (inB_length ha)).append (.keep m c (.skip (Sq.refl (inB_length hb))))
  have hps := mapM_forall₂ (forall₂_of_toList (Q := fun z p => gatherPos n z = .ok p) sel (fun i hi => gatherPos_ok (hsel i hi).1 (hsel i hi).2))
  refine ⟨ofFn param.shape (gatherAdd k g3 ((List.range (size indices.shape)).map (fun t => sel (unflat indices.shape t))) 0 (fun _ => 0)), ?_, rfl, ?_⟩
  · rw [gatherGrad, if_neg (by omega), Int.toNat_natCast, hn]
    simp only
    show (unwrap (intoShape gy S) >>= _) = _
    rw [hg3]
    simp only [unwrap, bind, Except.bind, hps]
  · intro a p b ha hp hb
    have hal : a.length = k := by rw [inB_length ha]; simp; omega
    show gatherAdd k g3 _ 0 (fun _ => 0) (a ++ p :: b) = _
    rw [gatherAdd_spec, zero_add, getD_append_cons hal]
    simp only [List.length_map, List.length_range, Nat.zero_add]
    refine sum_bij' (fun t _ => unflat indices.shape t) (fun i _ => flat indices.shape i) ?_ ?_ ?_ ?_ ?_
    · intro t ht
      rw [mem_filter, mem_range] at ht
      have : sel (unflat indices.shape t) = p := by
        have := ht.2
        rwa [List.getD_eq_getElem?_getD, List.getElem?_map, List.getElem?_range ht.1] at this
      simpa using ⟨inB_unflat ht.1, this⟩
    · intro i hi
      rw [mem_filter, mem_idxs] at hi
      rw [mem_filter, mem_range]
      exact ⟨flat_lt hi.1, by rw [getD_sel sel hi.1]; exact hi.2⟩
    · intro t ht
      rw [mem_filter, mem_range] at ht
      exact flat_unflat ht.1
    · intro i hi
      rw [mem_filter, mem_idxs] at hi
      exact unflat_flat hi.1
    · intro t ht
      rw [mem_filter, mem_range] at ht
      rw [set_append_cons hal]
      have := hget a (unflat indices.shape t) b ha (inB_unflat ht.1) hb
      rwa [flat_unflat ht.1] at this

/-- Gathering and its gradient are adjoint. -/
theorem gatherGrad_adjoint {R : Type} [CommSemiring R] (param gy : Arr R) (indices : Arr Int) (k n : Nat) (sel : List Nat → Nat)
    (hn : param.shape[k]? = some n) (hne : 0 < indices.shape.prod)
    (hsel : ∀ i, InB i indices.shape → AxisIs n (indices.get i) (sel i) ∧ indices.get i ≠ -1)
    (hgy : gy.shape = param.shape.take k ++ indices.shape ++ param.shape.drop (k + 1))
    (hl : isStandard gy.shape gy.strides = true ∨ (indices.shape.length = 1 ∨ ∃ m, indices.shape = [m, 1]) ∧ Contig gy.shape gy.strides) :
    ∃ g, gatherGrad param.shape indices k gy = .ok g ∧ g.shape = param.shape ∧ ∀ dx : Arr R, dx.shape = param.shape →
      ∃ dy, gather true dx indices k = .ok dy ∧
        ∑ j ∈ idxs gy.shape, gy.get j * dy.get j = ∑ o ∈ idxs param.shape, g.get o * dx.get o := by
  obtain ⟨g, hg, hs, hget⟩ := gatherGrad_elements param gy indices k n sel hn hsel hgy hl
  obtain ⟨hsplit, hkl⟩ := split_shape hn
  refine ⟨g, hg, hs, fun dx hdx => ?_⟩
  obtain ⟨dy, hdy, hys, hyg⟩ := gather_norm_spec dx indices k k n sel (by rw [hdx]; exact ⟨hkl, .inl rfl⟩) (by rw [hdx]; exact hn) hne
    (fun i hi => (hsel i hi).1)
  rw [hdx] at hys hyg
  refine ⟨dy, hdy, ?_⟩
  -- positions of the result are triples
  let A := param.shape.take k
  let B := param.shape.drop (k + 1)
  let I := indices.shape
  have hAl : A.length = k := by simp [A]; omega
  let φ : List Nat → List Nat := fun j => j.take k ++ sel ((j.drop k).take I.length) :: j.drop (k + I.length)
  have hφ : ∀ a i b, a.length = k → i.length = I.length → φ (a ++ i ++ b) = a ++ sel i :: b := by
    intro a i b ha hi
    simp only [φ]
    rw [List.append_assoc, List.take_left' ha, List.drop_left' ha, List.take_left' hi, ← List.append_assoc,
      List.drop_left' (by simp [ha, hi])]
  have htri : ∀ j, InB j gy.shape → ∃ a i b, InB a A ∧ InB i I ∧ InB b B ∧ j = a ++ i ++ b := by
    intro j hj
    rw [hgy] at hj
    have hj' : InB j (A ++ I ++ B) := hj
    refine ⟨j.take k, (j.drop k).take I.length, j.drop (k + I.length), ?_, ?_, ?_, ?_⟩
    · have := List.forall₂_take k hj'
      rwa [List.append_assoc, List.take_left' hAl] at this
    · have := List.forall₂_take I.length (List.forall₂_drop k hj')
      rwa [List.append_assoc, List.drop_left' hAl, List.take_left' rfl] at this
    · have := List.forall₂_drop (k + I.length) hj'
      rwa [List.drop_left' (by simp [hAl])] at this
    · rw [List.append_assoc, ← List.drop_drop, List.take_append_drop, List.take_append_drop]
  have hmem : ∀ a i b, InB a A → InB i I → InB b B → InB (a ++ i ++ b) gy.shape := by
    intro a i b ha hi hb
    rw [hgy]; exact inB_append (inB_append ha hi) hb
  symm
  have hval : ∀ j, InB j gy.shape → dy.get j = dx.get (φ j) := by
    intro j hj
    obtain ⟨a, i, b, ha, hi, hb, rfl⟩ := htri j hj
    rw [hyg a i b ha hi hb, hφ a i b (by rw [inB_length ha, hAl]) (inB_length hi)]
  rw [show (∑ j ∈ idxs gy.shape, gy.get j * dy.get j) = ∑ j ∈ idxs gy.shape, gy.get j * dx.get (φ j) from
    sum_congr rfl fun j hj => by rw [hval j (by simpa using hj)]]
  refine scatter_adjoint φ ?_ g.get gy.get dx.get ?_
  · intro j hj
    obtain ⟨a, i, b, ha, hi, hb, rfl⟩ := htri j hj
    rw [hφ a i b (by rw [inB_length ha, hAl]) (inB_length hi), hsplit]
    exact inB_append ha (.cons (hsel i hi).1.1 hb)
  · intro o ho
    have ho' : InB o (A ++ n :: B) := by rw [hsplit] at ho; exact ho
    have ha : InB (o.take k) A := by
      have := List.forall₂_take k ho'
      rwa [List.take_left' hAl] at this
    have hpb : InB (o.drop k) (n :: B) := by
      have := List.forall₂_drop k ho'
      rwa [List.drop_left' hAl] at this
    obtain ⟨p, b, hpb'⟩ : ∃ p b, o.drop k = p :: b := by
      cases hd : o.drop k with
      | nil => rw [hd] at hpb; exact absurd (inB_length hpb) (by simp)
      | cons p b => exact ⟨p, b, rfl⟩
    rw [hpb'] at hpb
    obtain ⟨hp, hb⟩ := List.forall₂_cons.1 hpb
    have hoe : o = o.take k ++ p :: b := by rw [← hpb', List.take_append_drop]
    have hal : (o.take k).length = k := by rw [inB_length ha, hAl]
    rw [hoe, hget _ p b ha hp hb]
    refine sum_bij' (fun i _ => o.take k ++ i ++ b) (fun j _ => (j.drop k).take I.length) ?_ ?_ ?_ ?_ ?_
    · intro i hi
      rw [mem_filter, mem_idxs] at hi
      rw [mem_filter, mem_idxs]
      exact ⟨hmem _ i b ha hi.1 hb, by rw [hφ _ i b hal (inB_length hi.1), hi.2]⟩
    · intro j hj
      rw [mem_filter, mem_idxs] at hj
      obtain ⟨a', i', b', ha', hi', hb', rfl⟩ := htri j hj.1
      have hal' : a'.length = k := by rw [inB_length ha', hAl]
      have he := hj.2
      rw [hφ a' i' b' hal' (inB_length hi')] at he
      obtain ⟨h1, h2⟩ := List.append_inj he (by omega)
      rw [mem_filter, mem_idxs, List.append_assoc, List.drop_left' hal', List.take_left' (inB_length hi')]
      exact ⟨hi', (List.cons.inj h2).1⟩
    · intro i hi
      rw [mem_filter, mem_idxs] at hi
      show List.take I.length (List.drop k (o.take k ++ i ++ b)) = i
      rw [List.append_assoc, List.drop_left' hal, List.take_left' (inB_length hi.1)]
    · intro j hj
      rw [mem_filter, mem_idxs] at hj
      obtain ⟨a', i', b', ha', hi', hb', rfl⟩ := htri j hj.1
      have hal' : a'.length = k := by rw [inB_length ha', hAl]
      have he := hj.2
      rw [hφ a' i' b' hal' (inB_length hi')] at he
      obtain ⟨h1, h2⟩ := List.append_inj he (by omega)
      show o.take k ++ List.take I.length (List.drop k (a' ++ i' ++ b')) ++ b = _
      rw [show List.take I.length (List.drop k (a' ++ i' ++ b')) = i' by
        rw [List.append_assoc, List.drop_left' hal', List.take_left' (inB_length hi')], ← h1, (List.cons.inj h2).2]
    · intro i _; rfl

end Verif.Nd
