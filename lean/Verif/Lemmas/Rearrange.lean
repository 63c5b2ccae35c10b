import Verif.Lemmas.ReduceGrad
import Verif.Model.ArrayOps
import Verif.Spec.ArrayOps

/-!
# Lemmas on rearranging ops: adjoints of pullbacks, row-major positions, reshape, transpose
-/

namespace Verif.Nd
variable {R : Type}
open Finset

/-- Adding up along a map of positions is the adjoint of reading along it. -/
theorem scatter_adjoint [CommSemiring R] {s t : List Nat} (p : List Nat → List Nat) (hp : ∀ i, InB i t → InB (p i) s)
    (g u d : List Nat → R) (hg : ∀ o, InB o s → g o = ∑ i ∈ (idxs t).filter (fun i => p i = o), u i) :
    ∑ o ∈ idxs s, g o * d o = ∑ i ∈ idxs t, u i * d (p i) := by
  have := pullback_adjoint (s := t) (t := s) p hp d u
  rw [show (∑ i ∈ idxs t, u i * d (p i)) = ∑ i ∈ idxs t, d (p i) * u i from sum_congr rfl fun _ _ => mul_comm _ _, this]
  refine sum_congr rfl fun o ho => ?_
  rw [hg o (by simpa using ho), mul_comm]

/-- The injective case: the gradient is moved along the map and zero elsewhere. -/
theorem scatter_adjoint_inj [CommSemiring R] {s t : List Nat} (p : List Nat → List Nat) (hp : ∀ i, InB i t → InB (p i) s)
    (hinj : ∀ i j, InB i t → InB j t → p i = p j → i = j) (g u d : List Nat → R) (hg : ∀ i, InB i t → g (p i) = u i)
    (h0 : ∀ o, InB o s → (∀ i, InB i t → p i ≠ o) → g o = 0) :
    ∑ o ∈ idxs s, g o * d o = ∑ i ∈ idxs t, u i * d (p i) := by
  refine scatter_adjoint p hp g u d fun o ho => ?_
  by_cases h : ∃ i, InB i t ∧ p i = o
  · obtain ⟨i, hi, rfl⟩ := h
    have : (idxs t).filter (fun j => p j = p i) = {i} := by
      ext j
      simp only [mem_filter, mem_idxs, mem_singleton]
      exact ⟨fun ⟨h1, h2⟩ => hinj j i h1 hi h2, fun h => by subst h; exact ⟨hi, rfl⟩⟩
    rw [this, sum_singleton, hg i hi]
  · push Not at h
    rw [h0 o ho h]
    symm
    refine sum_eq_zero fun i hi => ?_
    rw [mem_filter, mem_idxs] at hi
    exact absurd hi.2 (h i hi.1)

/-! ## Row-major positions -/

theorem lex_iff_flat {s p o : List Nat} (hp : InB p s) (ho : InB o s) : List.Lex (· < ·) p o ↔ flat s p < flat s o := by
  induction s generalizing p o with
  | nil => simp at hp ho; subst hp ho; simp [flat]
  | cons n s ih =>
    cases p with
    | nil => exact absurd (inB_length hp) (by simp)
    | cons a p =>
      cases o with
      | nil => exact absurd (inB_length ho) (by simp)
      | cons b o =>
        have ⟨ha, hp'⟩ := List.forall₂_cons.1 hp
        have ⟨hb, ho'⟩ := List.forall₂_cons.1 ho
        have h1 := flat_lt hp'
        have h2 := flat_lt ho'
        simp only [flat]
        constructor
        · intro h
          cases h with
          | cons h => have := (ih hp' ho').1 h; omega
          | rel h =>
            have : (a + 1) * size s ≤ b * size s := Nat.mul_le_mul_right _ h
            rw [Nat.add_mul] at this
            omega
        · intro h
          rcases Nat.lt_trichotomy a b with hab | hab | hab
          · exact .rel hab
          · subst hab
            exact .cons ((ih hp' ho').2 (by omega))
          · have : (b + 1) * size s ≤ a * size s := Nat.mul_le_mul_right _ hab
            rw [Nat.add_mul] at this
            omega

theorem card_idxs (s : List Nat) : (idxs s).card = size s := by
  rw [← card_range (size s)]
  refine card_bij' (fun o _ => flat s o) (fun k _ => unflat s k) ?_ ?_ ?_ ?_
  · intro o ho; simpa using flat_lt (by simpa using ho)
  · intro k hk; simpa using inB_unflat (by simpa using hk)
  · intro o ho; exact unflat_flat (by simpa using ho)
  · intro k hk; exact flat_unflat (by simpa using hk)

theorem rowPos_eq {s o : List Nat} (ho : InB o s) : rowPos s o = flat s o := by
  unfold rowPos
  have hlt := flat_lt ho
  rw [← card_range (flat s o)]
  refine card_bij' (fun p _ => flat s p) (fun k _ => unflat s k) ?_ ?_ ?_ ?_
  · intro p hp
    rw [mem_filter, mem_idxs] at hp
    simpa using (lex_iff_flat hp.1 ho).1 hp.2
  · intro k hk
    rw [mem_range] at hk
    have hb : InB (unflat s k) s := inB_unflat (by omega)
    rw [mem_filter, mem_idxs]
    exact ⟨hb, (lex_iff_flat hb ho).2 (by rw [flat_unflat (by omega)]; exact hk)⟩
  · intro p hp
    rw [mem_filter, mem_idxs] at hp
    exact unflat_flat hp.1
  · intro k hk
    rw [mem_range] at hk
    exact flat_unflat (by omega)

theorem size_eq_prod (s : List Nat) : size s = s.prod := by
  induction s with
  | nil => rfl
  | cons n s ih => simp [size, ih]

/-! ## Reshape -/

theorem mapM_forall₂ {α β : Type} {f : α → Res β} {l : List α} {t : List β} (h : List.Forall₂ (fun a b => f a = .ok b) l t) : l.mapM f = .ok t := by
  induction h with
  | nil => rfl
  | cons h _ ih => simp [List.mapM_cons, h, ih, bind, Except.bind, pure, Except.pure]

theorem mapM_ok {α β : Type} {f : α → Res β} {l : List α} {t : List β} (h : l.mapM f = .ok t) : List.Forall₂ (fun a b => f a = .ok b) l t := by
  induction l generalizing t with
  | nil => simp [pure, Except.pure] at h; subst h; exact .nil
  | cons a l ih =>
    rw [List.mapM_cons] at h
    cases ha : f a with
    | error e => simp [ha, bind, Except.bind] at h
    | ok b =>
      cases hl : l.mapM f with
      | error e => simp [ha, hl, bind, Except.bind] at h
      | ok bs =>
        simp [ha, hl, bind, Except.bind, pure, Except.pure] at h
        subst h
        exact .cons ha (ih hl)

/-- `reshape` never changes the row-major sequence. -/
theorem reshape_target {x : Arr R} {shape : List Int} {t : List Nat}
    (ht : shape.mapM (targetDim (size x.shape) (iprod shape)) = .ok t) :
    (size t = size x.shape → ∃ y, reshape x shape = .ok y ∧ y.shape = t ∧ ∀ i, InB i t → y.get i = x.get (unflat x.shape (flat t i))) ∧
    (size t ≠ size x.shape → reshape x shape = .error .opError) := by
  have hd : isStandard (deepCopy x).shape (deepCopy x).strides = true := isStandard_cStrides _
  constructor
  · intro hs
    by_cases hst : isStandard x.shape x.strides = true
    · refine ⟨⟨t, cStrides t, fun idx => x.get (unflat x.shape (flat t idx))⟩, ?_, rfl, fun i _ => rfl⟩
      simp [reshape, ht, bind, Except.bind, hst, intoShape_standard hst hs]
    · refine ⟨⟨t, cStrides t, fun idx => x.get (unflat x.shape (flat t idx))⟩, ?_, rfl, fun i _ => rfl⟩
      have : intoShape (deepCopy x) t = some ⟨t, cStrides t, fun idx => x.get (unflat x.shape (flat t idx))⟩ :=
        intoShape_standard hd hs
      simp [reshape, ht, bind, Except.bind, hst, this, orOpError]
  · intro hs
    have h1 : intoShape x t = none := by simp [intoShape, hs]
    have h2 : intoShape (deepCopy x) t = none := by simp [intoShape, deepCopy, ofFn, hs]
    by_cases hst : isStandard x.shape x.strides = true <;> simp [reshape, ht, bind, Except.bind, hst, h1, h2, orOpError]

theorem iprod_nat {l : List Int} {t : List Nat} (h : List.Forall₂ (fun (d : Int) (n : Nat) => d = -1 ∨ d = n) l t) (hc : l.count (-1) = 0) :
    iprod l = (t.prod : Int) := by
  induction h with
  | nil => rfl
  | @cons d n l t h _ ih =>
    have hd : d ≠ -1 := fun e => by subst e; simp at hc
    have hc' : l.count (-1) = 0 := by rw [List.count_cons] at hc; omega
    rw [iprod, ih hc', List.prod_cons, h.resolve_left hd]
    push_cast; rfl

theorem iprod_append (l m : List Int) : iprod (l ++ m) = iprod l * iprod m := by
  induction l with
  | nil => simp [iprod]
  | cons a l ih => simp [iprod, ih, mul_assoc]

theorem targets_ok {len : Nat} {shape : List Int} {t : List Nat} (hlen : t.prod = len) (hc : shape.count (-1) ≤ 1)
    (h : List.Forall₂ (fun (d : Int) (n : Nat) => d = -1 ∨ d = n) shape t) (h0 : ∀ k : Nat, shape[k]? = some (-1) → (t.eraseIdx k).prod ≠ 0) :
    shape.mapM (targetDim len (iprod shape)) = .ok t := by
  refine mapM_forall₂ ?_
  rw [List.forall₂_iff_get] at h ⊢
  refine ⟨h.1, fun k hk hk' => ?_⟩
  have hd := h.2 k hk hk'
  simp only [List.get_eq_getElem] at hd ⊢
  unfold targetDim
  by_cases he : shape[k] = -1
  · -- the inferred dimension
    have hsplit : shape = shape.take k ++ (-1) :: shape.drop (k + 1) := by
      rw [← he, List.cons_getElem_drop_succ, List.take_append_drop]
    have htsplit : t = t.take k ++ t[k] :: t.drop (k + 1) := by
      rw [List.cons_getElem_drop_succ, List.take_append_drop]
    have hF : List.Forall₂ (fun (d : Int) (n : Nat) => d = -1 ∨ d = n) shape t := by rw [List.forall₂_iff_get]; exact h
    have hcs : (shape.take k).count (-1) + ((shape.drop (k + 1)).count (-1) + 1) ≤ 1 := by
      conv at hc => rw [hsplit]
      rw [List.count_append, List.count_cons_self] at hc
      exact hc
    have hp : iprod shape = -((t.eraseIdx k).prod : Int) := by
      rw [hsplit, iprod_append, iprod, iprod_nat (List.forall₂_take k hF) (by omega), iprod_nat (List.forall₂_drop (k + 1) hF) (by omega),
        List.eraseIdx_eq_take_drop_succ, List.prod_append]
      push_cast; ring
    have hne := h0 k (by rw [List.getElem?_eq_getElem hk, he])
    have htp : t.prod = t[k] * (t.eraseIdx k).prod := by
      conv_lhs => rw [htsplit]
      rw [List.eraseIdx_eq_take_drop_succ, List.prod_append, List.prod_append, List.prod_cons]
      ring
    have hpos : 0 < (t.eraseIdx k).prod := Nat.pos_of_ne_zero hne
    rw [if_neg (by simp [he]), hp, neg_neg, if_neg (by omega), if_neg (by omega)]
    congr 1
    rw [← hlen, htp, Int.toNat_natCast, Nat.mul_div_cancel _ hpos]
  · have := hd.resolve_left he
    rw [if_pos he, this, if_neg (by omega)]
    simp

theorem prod_eq_iff_size {s t : List Nat} : t.prod = s.prod ↔ size t = size s := by rw [size_eq_prod, size_eq_prod]

theorem reshape_ok {x : Arr R} {shape : List Int} {t : List Nat} (h : ReshapesTo x.shape shape t) :
    ∃ y, reshape x shape = .ok y ∧ y.shape = t ∧ ∀ i, InB i t → y.get i = x.get (unflat x.shape (flat t i)) := by
  obtain ⟨h1, h2, h3, h4⟩ := h
  exact (reshape_target (targets_ok (by rw [h1, size_eq_prod]) h2 h3 h4)).1 (prod_eq_iff_size.1 h1)

theorem sameSequence_of {x y : Arr R} (hs : size y.shape = size x.shape)
    (h : ∀ i, InB i y.shape → y.get i = x.get (unflat x.shape (flat y.shape i))) : SameSequence x y := by
  refine ⟨by rw [card_idxs, card_idxs, hs], fun o i ho hi hr => ?_⟩
  rw [rowPos_eq ho, rowPos_eq hi] at hr
  rw [h i hi, ← hr, unflat_flat ho]

/-! ## Transpose -/

theorem transposeDims_false (perm : List Nat) : transposeDims false 0 perm (List.replicate perm.length 0) = .ok perm := by
  have key : ∀ (ds : List Nat) (pre suf : List Nat), suf.length = ds.length → transposeDims false pre.length ds (pre ++ suf) = .ok (pre ++ ds) := by
    intro ds
    induction ds with
    | nil => intro pre suf h; simp [transposeDims, List.eq_nil_of_length_eq_zero h]
    | cons d ds ih =>
      intro pre suf h
      cases suf with
      | nil => simp at h
      | cons a suf =>
        have := ih (pre ++ [d]) suf (by simpa using h)
        simp only [List.length_append, List.length_cons, List.length_nil, List.append_assoc, List.singleton_append] at this
        simpa [transposeDims] using this
  simpa using key perm [] (List.replicate perm.length 0) (by simp)

/-- The result of the inverting loop: entry `d` is the position of `d` in `perm`. -/
theorem transposeDims_true {n : Nat} {perm : List Nat} (hp : perm.Perm (List.range n)) :
    transposeDims true 0 perm (List.replicate perm.length 0) = .ok ((List.range n).map (fun k => perm.idxOf k)) := by
  have hnd : perm.Nodup := hp.nodup_iff.2 List.nodup_range
  have hlen : perm.length = n := by simpa using hp.length_eq
  have key : ∀ (ds : List Nat) (i : Nat) (dims : List Nat), (∀ d ∈ ds, d < dims.length) → ds.Nodup →
      ∃ r, transposeDims true i ds dims = .ok r ∧ r.length = dims.length ∧
        ∀ k, r[k]? = if k ∈ ds then some (i + ds.idxOf k) else dims[k]? := by
    intro ds
    induction ds with
    | nil => intro i dims _ _; exact ⟨dims, rfl, rfl, by simp⟩
    | cons d ds ih =>
      intro i dims hb hn
      rw [List.nodup_cons] at hn
      have hd := hb d (by simp)
      obtain ⟨r, hr, hl, hk⟩ := ih (i + 1) (dims.set d i) (by simpa using fun e he => hb e (by simp [he])) hn.2
      refine ⟨r, by simp [transposeDims, hd, hr], by simpa using hl, fun k => ?_⟩
      rw [hk k]
      by_cases h1 : k = d
      · subst h1
        simp [hn.1, hd]
      · by_cases h2 : k ∈ ds
        · rw [if_pos h2, if_pos (by simp [h2]), List.idxOf_cons_ne _ (Ne.symm h1)]
          congr 1; omega
        · simp [h1, h2, Ne.symm h1]
  obtain ⟨r, hr, hl, hk⟩ := key perm 0 (List.replicate perm.length 0)
    (fun d hd => by have := hp.mem_iff.1 hd; simpa [hlen] using this) hnd
  rw [hr]
  congr 1
  apply List.ext_getElem?
  intro k
  rw [hk k]
  by_cases h : k < n
  · have : k ∈ perm := hp.mem_iff.2 (by simpa using h)
    simp [this, h]
  · have : k ∉ perm := fun hm => h (by simpa using hp.mem_iff.1 hm)
    simp [this, h, hlen]

theorem permutedAxes_ok {n : Nat} {x : Arr R} {dims : List Nat} (hn : x.shape.length = n) (hp : dims.Perm (List.range n)) :
    ∃ y, permutedAxes x dims = .ok y ∧ y.shape = dims.map (fun k => x.shape.getD k 0) ∧
      ∀ o, o.length = n → y.get (dims.map (fun k => o.getD k 0)) = x.get o := by
  have hlen : dims.length = n := by simpa using hp.length_eq
  have hnd : dims.Nodup := hp.nodup_iff.2 List.nodup_range
  refine ⟨⟨dims.map (fun k => x.shape.getD k 0), dims.map (fun k => x.strides.getD k 0),
      fun idx => x.get ((List.range x.shape.length).map (fun k => idx.getD (dims.idxOf k) 0))⟩, ?_, rfl, fun o ho => ?_⟩
  · unfold permutedAxes
    rw [if_pos ⟨by omega, fun k hk => hp.mem_iff.2 (by simpa [hn] using hk)⟩]
  · show x.get _ = x.get o
    congr 1
    apply List.ext_getElem
    · simp [hn, ho]
    · intro k h1 h2
      have hk : k ∈ dims := hp.mem_iff.2 (by simpa [hn] using h1)
      have hi : dims.idxOf k < dims.length := List.idxOf_lt_length_iff.2 hk
      simp [List.getD_eq_getElem?_getD, hi, h2]

theorem getD_map_zero {o : List Nat} (dims : List Nat) (k : Nat) (h : k < dims.length) : (dims.map (fun j => o.getD j 0)).getD k 0 = o.getD dims[k] 0 := by
  simp [List.getD_eq_getElem?_getD, h]

theorem inB_perm {n : Nat} {s o dims : List Nat} (hs : s.length = n) (hp : dims.Perm (List.range n)) (h : InB o s) :
    InB (dims.map (fun k => o.getD k 0)) (dims.map (fun k => s.getD k 0)) := by
  have hl := inB_length h
  rw [inB_iff] at h ⊢
  refine ⟨by simp, fun k h1 h2 => ?_⟩
  simp only [List.length_map] at h1
  have : dims[k] < n := by simpa using hp.mem_iff.1 (List.getElem_mem h1)
  simp only [List.getElem_map]
  rw [List.getD_eq_getElem?_getD, List.getD_eq_getElem?_getD, List.getElem?_eq_getElem (by omega), List.getElem?_eq_getElem (by omega)]
  exact h.2 _ _ _

/-- The position that is permuted to `i`. -/
def unperm (n : Nat) (dims i : List Nat) : List Nat := (List.range n).map (fun k => i.getD (dims.idxOf k) 0)

theorem perm_unperm {n : Nat} {dims i : List Nat} (hp : dims.Perm (List.range n)) (hi : i.length = n) :
    dims.map (fun k => (unperm n dims i).getD k 0) = i := by
  have hlen : dims.length = n := by simpa using hp.length_eq
  have hnd : dims.Nodup := hp.nodup_iff.2 List.nodup_range
  apply List.ext_getElem
  · simp [hlen, hi]
  · intro k h1 h2
    simp only [List.length_map] at h1
    have hk : dims[k] < n := by simpa using hp.mem_iff.1 (List.getElem_mem h1)
    simp only [List.getElem_map, unperm]
    rw [List.getD_eq_getElem?_getD, List.getElem?_map, List.getElem?_range hk]
    simp [hnd.idxOf_getElem, h2]

theorem inB_unperm {n : Nat} {s dims i : List Nat} (hs : s.length = n) (hp : dims.Perm (List.range n))
    (hi : InB i (dims.map (fun k => s.getD k 0))) : InB (unperm n dims i) s := by
  have hlen : dims.length = n := by simpa using hp.length_eq
  have hl := inB_length hi
  simp only [List.length_map] at hl
  rw [inB_iff] at hi ⊢
  refine ⟨by simp [unperm, hs], fun k h1 h2 => ?_⟩
  simp only [unperm, List.length_map, List.length_range] at h1
  have hk : k ∈ dims := hp.mem_iff.2 (by simpa using h1)
  have hd : dims.idxOf k < dims.length := List.idxOf_lt_length_iff.2 hk
  have := hi.2 (dims.idxOf k) (by omega) (by simpa using hd)
  simp only [List.getElem_map, List.getElem_idxOf] at this
  rw [List.getD_eq_getElem?_getD, List.getElem?_eq_getElem h2] at this
  simp only [unperm, List.getElem_map, List.getElem_range]
  rw [List.getD_eq_getElem?_getD, List.getElem?_eq_getElem (by omega)]
  simpa using this

theorem perm_inj {n : Nat} {dims o o' : List Nat} (hp : dims.Perm (List.range n)) (ho : o.length = n) (ho' : o'.length = n)
    (h : dims.map (fun k => o.getD k 0) = dims.map (fun k => o'.getD k 0)) : o = o' := by
  apply List.ext_getElem (by omega)
  intro k h1 h2
  have hk : k ∈ dims := hp.mem_iff.2 (by simpa [← ho] using h1)
  have := List.map_inj_left.1 h k hk
  simpa [List.getD_eq_getElem?_getD, h1, h2] using this

/-- The permutation used by the inverting op. -/
theorem inv_perm {n : Nat} {dims : List Nat} (hp : dims.Perm (List.range n)) : ((List.range n).map (fun k => dims.idxOf k)).Perm (List.range n) := by
  have hlen : dims.length = n := by simpa using hp.length_eq
  have hnd : ((List.range n).map (fun k => dims.idxOf k)).Nodup := by
    refine List.Nodup.map_on ?_ List.nodup_range
    intro a ha b hb hab
    have ha' : a ∈ dims := hp.mem_iff.2 ha
    have hb' : b ∈ dims := hp.mem_iff.2 hb
    exact (List.idxOf_inj ha').1 hab
  refine (List.perm_ext_iff_of_nodup hnd List.nodup_range).2 fun k => ?_
  simp only [List.mem_map, List.mem_range]
  constructor
  · rintro ⟨a, ha, rfl⟩
    have : a ∈ dims := hp.mem_iff.2 (by simpa using ha)
    rw [← hlen]
    exact List.idxOf_lt_length_iff.2 this
  · intro hk
    have hk' : k < dims.length := by omega
    refine ⟨dims[k], by simpa using hp.mem_iff.1 (List.getElem_mem hk'), ?_⟩
    exact (hp.nodup_iff.2 List.nodup_range).idxOf_getElem k hk'

theorem reshapesTo_self (s t : List Nat) (h : s.prod = t.prod) : ReshapesTo t (s.map (fun (n : Nat) => (n : Int))) s := by
  refine ⟨h, ?_, ?_, ?_⟩
  · have : (s.map (fun (n : Nat) => (n : Int))).count (-1) = 0 := by
      rw [List.count_eq_zero]
      simp
    omega
  · rw [List.forall₂_map_left_iff, List.forall₂_same]
    exact fun n _ => .inr rfl
  · intro k hk
    rw [List.getElem?_map] at hk
    cases hs : s[k]? with
    | none => simp [hs] at hk
    | some n => simp [hs] at hk

/-- Reshaping and its gradient are adjoint. -/
theorem reshape_adjoint [CommSemiring R] (x gy : Arr R) (target : List Int) (t : List Nat) (h : ReshapesTo x.shape target t)
    (hgy : gy.shape = t) :
    ∃ g, reshapeGrad x gy = .ok g ∧ g.shape = x.shape ∧ ∀ dx : Arr R, dx.shape = x.shape → ∃ dy, reshape dx target = .ok dy ∧
      ∑ i ∈ idxs t, gy.get i * dy.get i = ∑ o ∈ idxs x.shape, g.get o * dx.get o := by
  subst hgy
  have hsz : size gy.shape = size x.shape := prod_eq_iff_size.1 h.1
  obtain ⟨g, hg, hs, hget⟩ := reshape_ok (x := gy) (reshapesTo_self x.shape gy.shape h.1.symm)
  refine ⟨g, hg, hs, fun dx hdx => ?_⟩
  obtain ⟨dy, hdy, hys, hyg⟩ := reshape_ok (x := dx) (shape := target) (t := gy.shape) (by rw [hdx]; exact h)
  refine ⟨dy, hdy, ?_⟩
  rw [hdx] at hyg
  symm
  rw [show (∑ i ∈ idxs gy.shape, gy.get i * dy.get i) = ∑ i ∈ idxs gy.shape, gy.get i * dx.get (unflat x.shape (flat gy.shape i)) from
    sum_congr rfl fun i hi => by rw [hyg i (by simpa using hi)]]
  refine scatter_adjoint_inj (fun i => unflat x.shape (flat gy.shape i)) ?_ ?_ g.get gy.get dx.get ?_ ?_
  · intro i hi; exact inB_unflat (by rw [← hsz]; exact flat_lt hi)
  · intro i j hi hj hij
    have h1 := flat_lt hi
    have h2 := flat_lt hj
    have := congrArg (flat x.shape) hij
    rw [flat_unflat (by omega), flat_unflat (by omega)] at this
    rw [← unflat_flat hi, this, unflat_flat hj]
  · intro i hi
    have h1 := flat_lt hi
    rw [hget _ (inB_unflat (by omega)), flat_unflat (by omega), unflat_flat hi]
  · intro o ho hno
    have h1 := flat_lt ho
    refine absurd ?_ (hno (unflat gy.shape (flat x.shape o)) (inB_unflat (by omega)))
    rw [flat_unflat (by omega), unflat_flat ho]

/-- The op with inverted axes undoes the permutation. -/
theorem transposeInv (x gy : Arr R) (perm : List Nat) (hp : perm.Perm (List.range x.shape.length))
    (hgy : gy.shape = perm.map (fun k => x.shape.getD k 0)) :
    ∃ g, transposeGrad gy perm false = .ok g ∧ g.shape = x.shape ∧
      ∀ o, InB o x.shape → g.get o = gy.get (perm.map (fun k => o.getD k 0)) := by
  have hlen : perm.length = x.shape.length := by simpa using hp.length_eq
  have hgl : gy.shape.length = x.shape.length := by simp [hgy, hlen]
  have hinv := inv_perm hp
  obtain ⟨g, hg, hs, hget⟩ := permutedAxes_ok hgl hinv
  have hround : ∀ o : List Nat, o.length = x.shape.length →
      ((List.range x.shape.length).map (fun k => perm.idxOf k)).map (fun k => (perm.map (fun k => o.getD k 0)).getD k 0) = o := by
    intro o ho
    apply List.ext_getElem (by simp [ho])
    intro k h1 h2
    have hk : k ∈ perm := hp.mem_iff.2 (by simpa [← ho] using h2)
    have hi : perm.idxOf k < perm.length := List.idxOf_lt_length_iff.2 hk
    simp only [List.getElem_map, List.getElem_range]
    rw [getD_map_zero perm _ hi, List.getElem_idxOf, List.getD_eq_getElem?_getD, List.getElem?_eq_getElem h2]
    rfl
  refine ⟨g, ?_, ?_, fun o ho => ?_⟩
  · rw [transposeGrad, transpose, if_neg (by omega)]
    simp only [Bool.not_false]
    rw [transposeDims_true hp]
    exact hg
  · rw [hs, hgy]; exact hround x.shape rfl
  · have := hget (perm.map (fun k => o.getD k 0)) (by simp [hlen])
    rw [hround o (inB_length ho)] at this
    exact this

theorem transpose_spec {R : Type} (x : Arr R) (perm : List Nat) (hp : perm.Perm (List.range x.shape.length)) :
    ∃ y, transpose x perm false = .ok y ∧ y.shape = perm.map (fun k => x.shape.getD k 0) ∧
      (∀ o, InB o x.shape → y.get (perm.map (fun k => o.getD k 0)) = x.get o) ∧
      ∀ i, InB i y.shape ↔ ∃ o, InB o x.shape ∧ perm.map (fun k => o.getD k 0) = i := by
  have hlen : perm.length = x.shape.length := by simpa using hp.length_eq
  obtain ⟨y, hy, hs, hg⟩ := permutedAxes_ok rfl hp
  refine ⟨y, ?_, hs, fun o ho => hg o (inB_length ho), fun i => ⟨fun hi => ?_, ?_⟩⟩
  · rw [transpose, if_neg (by omega), transposeDims_false]
    exact hy
  · rw [hs] at hi
    exact ⟨unperm x.shape.length perm i, inB_unperm rfl hp hi, perm_unperm hp (by rw [inB_length hi, List.length_map, hlen])⟩
  · rintro ⟨o, ho, rfl⟩
    rw [hs]
    exact inB_perm rfl hp ho

/-- The gradient op is the adjoint of the forward op. -/
theorem transpose_adjoint {R : Type} [CommSemiring R] (x gy : Arr R) (perm : List Nat) (hp : perm.Perm (List.range x.shape.length))
    (hgy : gy.shape = perm.map (fun k => x.shape.getD k 0)) :
    ∃ g, transposeGrad gy perm false = .ok g ∧ g.shape = x.shape ∧ ∀ dx : Arr R, dx.shape = x.shape → ∃ dy, transpose dx perm false = .ok dy ∧
      ∑ i ∈ idxs gy.shape, gy.get i * dy.get i = ∑ o ∈ idxs x.shape, g.get o * dx.get o := by
  obtain ⟨g, hg, hs, hget⟩ := transposeInv x gy perm hp hgy
  refine ⟨g, hg, hs, fun dx hdx => ?_⟩
  obtain ⟨dy, hdy, hds, hdg, hdi⟩ := transpose_spec dx perm (by rw [hdx]; exact hp)
  refine ⟨dy, hdy, ?_⟩
  rw [hdx] at hds hdg hdi
  rw [← hgy] at hds
  have := scatter_adjoint_inj (s := gy.shape) (t := x.shape) (fun o => perm.map (fun k => o.getD k 0))
    (fun o ho => by rw [hgy]; exact inB_perm rfl hp ho)
    (fun o o' ho ho' h => perm_inj hp (inB_length ho) (inB_length ho') h) dy.get dx.get gy.get hdg ?_
  · rw [show (∑ i ∈ idxs gy.shape, gy.get i * dy.get i) = ∑ i ∈ idxs gy.shape, dy.get i * gy.get i from sum_congr rfl fun _ _ => mul_comm _ _, this]
    refine sum_congr rfl fun o ho => ?_
    rw [hget o (by simpa using ho), mul_comm]
  · intro i hi hno
    obtain ⟨o, ho, hoi⟩ := (hdi i).1 (by rw [hds]; exact hi)
    exact absurd hoi (hno o ho)

end Verif.Nd
