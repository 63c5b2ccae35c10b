import Verif.Lemmas.Broadcast

/-!
# `MaybeReduceSum` sums over the broadcast positions
-/

namespace Verif.Nd
open Finset
variable {R : Type} {M : Type} [AddCommMonoid M]

theorem FiberSum.congr {x c : Arr M} {p q : List Nat → List Nat} (h : FiberSum x c p) (hpq : ∀ o, InB o x.shape → p o = q o) :
    FiberSum x c q := by
  refine ⟨fun o ho => hpq o ho ▸ h.maps o ho, fun idx hidx => ?_⟩
  rw [h.sum idx hidx]
  refine Finset.sum_congr (Finset.filter_congr fun o ho => ?_) (fun _ _ => rfl)
  rw [hpq o (mem_idxs.1 ho)]

theorem FiberSum.same {x c d : Arr M} {p : List Nat → List Nat} (h : FiberSum x c p) (hcd : Same c d) : FiberSum x d p := by
  refine ⟨fun o ho => hcd.1 ▸ h.maps o ho, fun idx hidx => ?_⟩
  rw [← hcd.1] at hidx
  rw [← hcd.2 idx hidx, h.sum idx hidx]

/-- The coordinate read in a dimension of size `n` through a broadcast. -/
def z1 (n i : Nat) : Nat := if n = 1 then 0 else i

theorem bIdx_eq_zip {s idx : List Nat} (hl : s.length = idx.length) : bIdx s idx = List.zipWith z1 s idx := by
  unfold bIdx
  rw [List.reverse_zipWith (by simpa using hl), List.reverse_reverse, List.reverse_reverse]; rfl

theorem insert_erase_mid {α : Type} (a : List α) (b c : α) (l : List α) :
    (((a ++ b :: l).eraseIdx a.length).insertIdx a.length c) = a ++ c :: l := by
  induction a with
  | nil => simp
  | cons x a ih => simp

theorem eraseIdx_mid {α : Type} (a : List α) (b : α) (l : List α) : (a ++ b :: l).eraseIdx a.length = a ++ l := by
  induction a with
  | nil => simp
  | cons x a ih => simpa using ih

theorem take_mid {α : Type} (a : List α) (b : α) (l : List α) : (a ++ b :: l).take (a.length + 1) = a ++ [b] := by
  induction a with
  | nil => simp
  | cons x a ih => simpa using ih

theorem drop_mid {α : Type} (a : List α) (b : α) (l : List α) : (a ++ b :: l).drop (a.length + 1) = l := by
  induction a with
  | nil => simp
  | cons x a ih => simp

theorem set_mid {α : Type} (a : List α) (b c : α) (l : List α) : (a ++ b :: l).set a.length c = a ++ c :: l := by
  induction a with
  | nil => simp
  | cons x a ih => simp

theorem insertIdx_mid {α : Type} (a : List α) (c : α) (l : List α) : (a ++ l).insertIdx a.length c = a ++ c :: l := by
  induction a with
  | nil => simp
  | cons x a ih => simpa using ih

theorem reduceLoop_spec (gy : Arr M) (rest : List (Nat × Nat)) (done : List Nat) (folded : Option (Arr M))
    (p : List Nat → List Nat)
    (hok : ∀ q ∈ rest, q.1 = q.2 ∨ (q.1 = 1 ∧ 1 < q.2))
    (hs : (folded.getD gy).shape = done ++ rest.map Prod.snd)
    (hst : ∀ r, folded = some r → r.strides = cStrides r.shape)
    (hF : FiberSum gy (folded.getD gy) p) :
    ∃ f', reduceLoop gy done.length rest folded = .ok f' ∧ (f'.getD gy).shape = done ++ rest.map Prod.fst ∧
      (∀ r, f' = some r → r.strides = cStrides r.shape) ∧
      (f' = none → folded = none ∧ ∀ q ∈ rest, q.1 = q.2) ∧
      FiberSum gy (f'.getD gy) (fun o => (p o).take done.length ++ List.zipWith z1 (rest.map Prod.fst) ((p o).drop done.length)) := by
  induction rest generalizing done folded p with
  | nil =>
    refine ⟨folded, rfl, by simpa using hs, hst, fun h => ⟨h, by simp⟩, hF.congr ?_⟩
    intro o ho
    have := inB_length (hF.maps o ho)
    rw [hs] at this
    simp at this
    simp [List.take_of_length_le this.le]
  | cons q rest ih =>
    obtain ⟨o1, g1⟩ := q
    have hq := hok (o1, g1) (by simp)
    have hrest : ∀ q ∈ rest, q.1 = q.2 ∨ (q.1 = 1 ∧ 1 < q.2) := fun q h => hok q (by simp [h])
    simp only [List.map_cons] at hs
    -- split of the index
    have hsplit : ∀ o, InB o gy.shape → ∃ a b l, p o = a ++ b :: l ∧ a.length = done.length ∧ b < g1 := by
      intro o ho
      have hm := hF.maps o ho
      rw [hs] at hm
      have hlen := inB_length hm
      simp at hlen
      refine ⟨(p o).take done.length, (p o)[done.length]'(by omega), (p o).drop (done.length + 1), ?_, by simp; omega, ?_⟩
      · rw [List.cons_getElem_drop_succ, List.take_append_drop]
      · have := (inB_iff.1 hm).2 done.length (by omega) (by simp)
        simpa using this
    rw [reduceLoop]
    split
    · rename_i hc
      obtain ⟨h1, hg⟩ := hc
      have hk : done.length < (folded.getD gy).shape.length := by rw [hs]; simp
      obtain ⟨r, hr, hrs, hrst, hrF⟩ := hF.foldAxis hk
      have hrs' : r.shape = done ++ rest.map Prod.snd := by rw [hrs, hs, eraseIdx_mid]
      obtain ⟨r', hr', hrs2, hrst2, hrF2⟩ := hrF.expandDims (k := done.length)
        (by rw [hrst]; exact isStandard_cStrides _) (by rw [hrs']; simp)
      have hrs2' : r'.shape = (done ++ [1]) ++ rest.map Prod.snd := by
        rw [hrs2, hrs', insertIdx_mid]; simp
      have hF2 : FiberSum gy ((some r').getD gy) (fun o => (p o).set done.length 0) := by
        refine hrF2.congr fun o ho => ?_
        have hlen : done.length < (p o).length := by rw [inB_length (hF.maps o ho)]; exact hk
        rw [List.insertIdx_eraseIdx_self (by omega)]
      obtain ⟨f', hf, hfs, hfst, hfn, hfF⟩ := ih (done ++ [1]) (some r') _ hrest hrs2'
        (by rintro _ ⟨⟩; exact hrst2) hF2
      refine ⟨f', ?_, ?_, hfst, fun h => absurd (hfn h).1 (by simp), hfF.congr fun o ho => ?_⟩
      · rw [hr]
        simp only [bind, Except.bind]
        rw [hr']
        simpa using hf
      · rw [hfs, h1]; simp
      · obtain ⟨a, b, l, hp, ha, hb⟩ := hsplit o ho
        simp only [List.length_append, List.length_cons, List.length_nil, hp, ← ha, h1, Nat.zero_add]
        rw [set_mid, take_mid, drop_mid, List.take_left, List.drop_left]
        simp [z1]
    · rename_i hc
      have heq : o1 = g1 := by rcases hq with h | h; exacts [h, absurd h hc]
      rw [if_neg (by simpa using heq)]
      obtain ⟨f', hf, hfs, hfst, hfn, hfF⟩ := ih (done ++ [g1]) folded p hrest (by rw [hs]; simp) hst hF
      refine ⟨f', by simpa using hf, by rw [hfs, heq]; simp, hfst, fun h => ⟨(hfn h).1, ?_⟩, hfF.congr fun o ho => ?_⟩
      · intro q hq
        rcases List.mem_cons.1 hq with h' | h'
        · rw [h']; exact heq
        · exact (hfn h).2 q h'
      · obtain ⟨a, b, l, hp, ha, hb⟩ := hsplit o ho
        have hz : z1 o1 b = b := by unfold z1; split <;> omega
        simp only [List.length_append, List.length_cons, List.length_nil, hp, ← ha, Nat.zero_add]
        rw [take_mid, drop_mid, List.take_left, List.drop_left]
        simp [hz]

theorem reshape_same {a : Arr R} (hst : isStandard a.shape a.strides = true) :
    ∃ r, intoShape a a.shape = some r ∧ r.strides = cStrides r.shape ∧ Same r a := by
  refine ⟨_, intoShape_standard hst rfl, rfl, rfl, fun idx hidx => ?_⟩
  change InB idx a.shape at hidx
  simp only
  rw [unflat_flat hidx]

theorem size_ones (n : Nat) : size (List.replicate n 1) = 1 := by
  induction n with
  | zero => rfl
  | succ n ih => simp [List.replicate_succ, size, ih]

theorem unflat_ones (n : Nat) : unflat (List.replicate n 1) 0 = List.replicate n 0 := by
  induction n with
  | zero => rfl
  | succ n ih => simp [List.replicate_succ, unflat, size_ones, ih]

theorem layoutLoop_ones (n : Nat) (ss : List Int) (c : Int) : layoutLoop (List.replicate n 1) ss c = true := by
  induction n generalizing ss with
  | zero => simp [layoutLoop]
  | succ n ih => cases ss <;> simp [List.replicate_succ, layoutLoop, ih]

theorem isStandard_ones (n : Nat) (ss : List Int) : isStandard (List.replicate n 1) ss = true := by
  simp [isStandard, layoutLoop_ones]

theorem inB_ones {n : Nat} {idx : List Nat} (h : InB idx (List.replicate n 1)) : idx = List.replicate n 0 := by
  induction n generalizing idx with
  | zero => simpa using h
  | succ n ih =>
    cases idx with
    | nil => simp [InB, List.replicate_succ] at h
    | cons i is =>
      simp only [List.replicate_succ, inB_cons] at h
      rw [ih h.2, List.replicate_succ, show i = 0 by omega]

theorem zip_ones (n : Nat) (o : List Nat) (h : o.length = n) : List.zipWith z1 (List.replicate n 1) o = List.replicate n 0 := by
  induction n generalizing o with
  | zero => simp
  | succ n ih =>
    cases o with
    | nil => simp at h
    | cons i is => simp only [List.replicate_succ, List.zipWith_cons_cons]; rw [ih _ (by simpa using h)]; simp [z1]

theorem replicate_inB_ones (n : Nat) : InB (List.replicate n 0) (List.replicate n 1) := by
  induction n with
  | zero => simp
  | succ n ih => simp [List.replicate_succ, ih]

/-- `FiberSum` survives collapsing an all-ones shape to a scalar. -/
theorem fiberSum_scalar {x c : Arr M} {p : List Nat → List Nat} {n : Nat} (h : FiberSum x c p) (hs : c.shape = List.replicate n 1) :
    ∃ r, intoShape c [] = some r ∧ r.shape = [] ∧ FiberSum x r (fun _ => []) := by
  have hst : isStandard c.shape c.strides = true := by rw [hs]; exact isStandard_ones _ _
  refine ⟨_, intoShape_standard hst (by rw [hs, size_ones]; rfl), rfl, fun o _ => by simp, ?_⟩
  intro idx hidx
  have hidx' : idx = [] := by simpa using hidx
  subst hidx'
  simp only [flat]
  rw [hs, unflat_ones, h.sum _ (by rw [hs]; exact replicate_inB_ones n)]
  refine Finset.sum_congr (Finset.filter_congr fun o ho => ?_) (fun _ _ => rfl)
  have := h.maps o (mem_idxs.1 ho)
  rw [hs] at this
  simp [inB_ones this]

theorem maybeReduce_spec (gy : Arr M) {s : List Nat} (hb : BroadcastsTo s gy.shape) (hr : ScalarOrRank s gy.shape)
    (hpos : ∀ n ∈ gy.shape, 0 < n) :
    ∃ r, maybeReduce gy s = .ok r ∧ r.shape = s ∧ FiberSum gy r (bIdx s) := by
  unfold maybeReduce
  split
  · rename_i he
    refine ⟨gy, rfl, he.symm, (fiberSum_id gy).congr fun o ho => ?_⟩
    rw [he, bIdx_self ho]; rfl
  · rename_i hne
    simp only
    have hs0 : s ≠ [0] := by
      rintro rfl
      rcases hr with h | h
      · simp at h
      · obtain ⟨n, hg⟩ := List.length_eq_one_iff.1 h.symm
        rw [hg] at hb
        have h0 := hb.2 0 (by simp) (by simp)
        simp at h0
        have hn := hpos n (by simp [hg])
        omega
    have hsc : isScalarShape s = true ↔ s = [] := by rw [isScalarShape_iff]; simp [hs0]
    generalize horig : (if isScalarShape s = true then List.replicate gy.shape.length 1 else s) = orig
    have hlen : orig.length = gy.shape.length := by
      rw [← horig]
      split
      · simp
      · rename_i h
        rcases hr with h' | h'
        · exact absurd (hsc.2 h') h
        · exact h'
    have hpair : ∀ q ∈ orig.zip gy.shape, q.1 = q.2 ∨ (q.1 = 1 ∧ 1 < q.2) := by
      intro q hq
      obtain ⟨k, hk, rfl⟩ := List.mem_iff_getElem.1 hq
      have hk' : k < gy.shape.length := by simp at hk; omega
      simp only [List.getElem_zip]
      have hpk := hpos _ (List.getElem_mem hk')
      have key : orig[k] = gy.shape[k] ∨ orig[k] = 1 := by
        subst horig
        split
        · right; simp
        · rename_i h
          rcases hr with h' | h'
          · exact absurd (hsc.2 h') h
          · have := hb.2 k (by omega) (by omega)
            simpa [h'] using this
      rcases key with h | h
      · exact .inl h
      · by_cases h1 : gy.shape[k] = 1
        · exact .inl (h.trans h1.symm)
        · exact .inr ⟨h, by omega⟩
    have hbidx : ∀ o, InB o gy.shape → s = [] → (fun _ : List Nat => ([] : List Nat)) o = bIdx s o := by
      rintro o - rfl; simp [bIdx]
    split
    · rename_i he
      -- all ones, scalar target
      have hs : s = [] := by
        by_contra hc
        rw [if_neg (by rw [hsc]; exact hc)] at horig
        exact hne (horig.trans he)
      have hgs : gy.shape = List.replicate gy.shape.length 1 := by
        rw [if_pos (hsc.2 hs)] at horig; rw [← he, ← horig]; simp
      obtain ⟨r, hr1, hr2, hr3⟩ := fiberSum_scalar (fiberSum_id gy) hgs
      refine ⟨r, by rw [hs, hr1]; rfl, by rw [hr2, hs], hr3.congr fun o ho => hbidx o ho hs⟩
    · rename_i hno
      have hsn : (orig.zip gy.shape).map Prod.snd = gy.shape := List.map_snd_zip hlen.ge
      have hfs : (orig.zip gy.shape).map Prod.fst = orig := List.map_fst_zip hlen.le
      obtain ⟨f', hf, hsh, hstr, hnone, hF⟩ := reduceLoop_spec gy (orig.zip gy.shape) [] none id hpair
        (by simp [hsn]) (by simp) (fiberSum_id gy)
      simp only [List.length_nil, List.nil_append, hfs] at hf hsh
      cases f' with
      | none =>
        exfalso
        apply hno
        apply List.ext_getElem hlen
        intro k h1 h2
        have := (hnone rfl).2 (orig[k], gy.shape[k]) (by
          rw [List.mem_iff_getElem]
          exact ⟨k, by simp; omega, by simp⟩)
        exact this
      | some c =>
        simp only [Option.getD_some] at hsh hF
        have hF' : FiberSum gy c (fun o => List.zipWith z1 orig o) := hF.congr (by simp [hfs])
        have hst : isStandard c.shape c.strides = true := by rw [hstr c rfl]; exact isStandard_cStrides _
        simp only [hf, bind, Except.bind, unwrap]
        by_cases hs : s = []
        · have ho : orig = List.replicate gy.shape.length 1 := by rw [← horig, if_pos (hsc.2 hs)]
          obtain ⟨r, hr1, hr2, hr3⟩ := fiberSum_scalar hF' (hsh.trans ho)
          refine ⟨r, by rw [hs, hr1], by rw [hr2, hs], hr3.congr fun o ho => hbidx o ho hs⟩
        · have ho : orig = s := by rw [← horig, if_neg (by rw [hsc]; exact hs)]
          obtain ⟨r, hr1, hr2, hr3⟩ := reshape_same hst
          rw [hsh, ho] at hr1
          refine ⟨r, by rw [hr1], by rw [hr3.1, hsh, ho], ?_⟩
          refine (hF'.same ⟨hr3.1.symm, fun idx h => (hr3.2 idx (by rw [hr3.1]; exact h)).symm⟩).congr fun o hob => ?_
          rw [ho, bIdx_eq_zip (by rw [← ho, hlen, inB_length hob])]

/-- Adjointness of a fibre sum and the corresponding reading of elements. -/
theorem FiberSum.adjoint {S : Type} [CommSemiring S] {x c : Arr S} {p : List Nat → List Nat} (h : FiberSum x c p) (d : List Nat → S) :
    ∑ o ∈ idxs c.shape, c.get o * d o = ∑ idx ∈ idxs x.shape, x.get idx * d (p idx) := by
  rw [← Finset.sum_fiberwise_of_maps_to (s := idxs x.shape) (t := idxs c.shape) (g := p)
    (fun o ho => mem_idxs.2 (h.maps o (mem_idxs.1 ho)))]
  refine Finset.sum_congr rfl fun o ho => ?_
  rw [h.sum o (mem_idxs.1 ho), Finset.sum_mul]
  refine Finset.sum_congr rfl fun idx hidx => ?_
  rw [(mem_filter.1 hidx).2]

end Verif.Nd
