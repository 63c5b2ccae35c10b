import Verif.Lemmas.ProgramConv
import Verif.Lemmas.ProgramEntropy
import Verif.Lemmas.ProgramExtremum
import Verif.Lemmas.ProgramMean
import Verif.Lemmas.ProgramRearrange
import Verif.Lemmas.ProgramReduceTo

/-! The values of a program vary as `jvp` says. -/

namespace Verif.Prog
open Verif Verif.Graph Verif.Nd Verif.Hint Verif.Gradient Verif.Spec Verif.Eval

/-- The result of an op varies as `jvp` says. -/
theorem vary {flat : Nat → List Nat → Prop} {p : Nat → Arr ℝ} {op : POp} {xs : List Nat} {v : Arr ℝ} (hns : op ≠ .stop) (hok : OpOk flat p op xs) (hr : op.run (xs.map p) = .ok v)
    {Y : Nat → ℝ → Arr ℝ} {t : Nat → List Nat → ℝ} (hm : ∀ x ∈ xs, Moves (Y x) (p x) (t x)) (hfix : ∀ a ∈ fixedIn op xs, ∀ u, Y a u = p a)
    (hflat : ∀ x ∈ xs, ∀ i, InB i (p x).shape → flat x i → t x i = 0) :
    ∃ Z, (∀ u, op.run (xs.map (fun x => Y x u)) = .ok (Z u)) ∧ Moves Z v (jvp p t op xs) := by
  unfold OpOk at hok
  split at hok
  · exact ⟨fun _ => v, fun u => hr, moves_const v⟩
  · exact ⟨fun _ => v, fun u => hr, moves_const v⟩
  · rename_i x
    refine ⟨fun _ => v, fun u => ?_, moves_const v⟩
    rw [← hr]
    show Except.ok (encShape (Y x u).shape) = Except.ok (encShape (p x).shape)
    rw [(hm x (by simp)).shape]
  · rename_i x
    refine ⟨fun _ => v, fun u => ?_, moves_const v⟩
    rw [← hr]
    show Except.ok (ofFn [] (fun _ => (Nd.size (Y x u).shape : ℝ))) = Except.ok (ofFn [] (fun _ => (Nd.size (p x).shape : ℝ)))
    rw [(hm x (by simp)).shape]
  · rename_i a b
    refine ⟨fun _ => v, fun u => ?_, moves_const v⟩
    rw [← hr]
    simp only [List.map_cons, List.map_nil]
    rw [hfix a (by simp [fixedIn]), hfix b (by simp [fixedIn])]
  · rename_i x y zs
    have hs : ∀ z ∈ x :: y :: zs, (p z).shape = (p x).shape := fun z hz => by
      rcases List.mem_cons.1 hz with rfl | hz
      · rfl
      · exact hok z hz
    obtain ⟨w, hw, hws, _⟩ := addN_value ((x :: y :: zs).map p) (p x).shape (by simp) (by
      intro w hw; obtain ⟨z, hz, rfl⟩ := List.mem_map.1 hw; exact hs z hz)
    have hr' : Nd.addN ((x :: y :: zs).map p) = .ok v := hr
    rw [hw] at hr'; cases hr'
    refine moves_of (op := .addN) (W := fun u => (x :: y :: zs).map (fun x => Y x u)) (fun u i => ((x :: y :: zs).map (fun x => (Y x u).get i)).sum) ?_ (fun u => ?_) (fun i hi => ?_)
    · rw [← hr]
      exact congrArg (POp.run .addN) (List.map_congr_left fun z hz => (hm z hz).start)
    · obtain ⟨w', hw', hws', hwg'⟩ := addN_value ((x :: y :: zs).map (fun x => Y x u)) (p x).shape (by simp) (by
        intro w hw; obtain ⟨z, hz, rfl⟩ := List.mem_map.1 hw; exact ((hm z hz).shape u).trans (hs z hz))
      refine ⟨w', hw', hws'.trans hws.symm, fun i hi => ?_⟩
      rw [hwg' i (by rw [← hws]; exact hi), List.map_map]; rfl
    · refine hasDerivAt_list_sum (f := fun u x => (Y x u).get i) (τ := fun x => t x i) fun z hz => (hm z hz).deriv i ?_
      rw [hs z hz, ← hws]; exact hi
  · rename_i a b
    obtain ⟨hc, hpos, -, -⟩ := inferable_common (.inl hr) hok
    refine binary_moves (f := (· + ·)) hr (fun x0 x1 h0 h1 => ?_) (hm a (by simp)) (hm b (by simp)) _ fun i hi => ?_
    · exact binForward_spec (fun a b => add_comm a b) (by rw [h0, h1]; exact hc)
        (fun h => absurd (h0 ▸ h) (ne_zero_shape hok.2.1)) (fun h => absurd (h1 ▸ h) (ne_zero_shape hok.2.2))
    · exact ((hm a (by simp)).deriv _ (inB_bIdx hc.1 hi)).add ((hm b (by simp)).deriv _ (inB_bIdx hc.2.1 hi))
  · rename_i a b
    obtain ⟨hc, hpos, -, -⟩ := inferable_common (.inr (.inl hr)) hok
    refine binary_moves (f := (· - ·)) hr (fun x0 x1 h0 h1 => ?_) (hm a (by simp)) (hm b (by simp)) _ fun i hi => ?_
    · exact subOp_spec (by rw [h0, h1]; exact hc)
    · exact ((hm a (by simp)).deriv _ (inB_bIdx hc.1 hi)).sub ((hm b (by simp)).deriv _ (inB_bIdx hc.2.1 hi))
  · rename_i a b
    obtain ⟨hc, hpos, -, -⟩ := inferable_common (.inr (.inr (.inl hr))) hok
    refine binary_moves (f := (· * ·)) hr (fun x0 x1 h0 h1 => ?_) (hm a (by simp)) (hm b (by simp)) _ fun i hi => ?_
    · exact mulOp_spec (by rw [h0, h1]; exact hc) hpos
    · refine (((hm a (by simp)).deriv _ (inB_bIdx hc.1 hi)).mul ((hm b (by simp)).deriv _ (inB_bIdx hc.2.1 hi))).congr_deriv ?_
      simp only [jvp, (hm a (by simp)).start, (hm b (by simp)).start]
  · rename_i a b
    obtain ⟨hc, hpos, -, -⟩ := inferable_common (.inr (.inr (.inr hr))) hok.1
    refine binary_moves (f := (· / ·)) hr (fun x0 x1 h0 h1 => ?_) (hm a (by simp)) (hm b (by simp)) _ fun i hi => ?_
    · exact divOp_spec (by rw [h0, h1]; exact hc) (by rw [h0]; exact ne_zero_shape hok.1.2.1) (fun _ => by rw [h1]; exact hok.2.1)
    · have hne : (Y b 0).get (bIdx (p b).shape i) ≠ 0 := by rw [(hm b (by simp)).start]; exact hok.2.2 _ (inB_bIdx hc.2.1 hi)
      refine (((hm a (by simp)).deriv _ (inB_bIdx hc.1 hi)).div ((hm b (by simp)).deriv _ (inB_bIdx hc.2.1 hi)) hne).congr_deriv ?_
      simp only [jvp, (hm a (by simp)).start, (hm b (by simp)).start]
  · rename_i op x
    have hx := hm x (by simp)
    have hv : v = op.compute (p x) := (Except.ok.inj hr).symm
    subst hv
    refine moves_of (op := .un op) (W := fun u => [Y x u]) (fun u i => op.f ((Y x u).get i)) (by rw [hx.start]; exact hr)
      (fun u => ⟨_, rfl, hx.shape u, fun i _ => rfl⟩) (fun i hi => ?_)
    have hi : InB i (p x).shape := hi
    have h1 := (hok.1 i hi).2.1.hasDerivAt
    rw [← hx.start] at h1
    have h2 := h1.comp 0 (hx.deriv i hi)
    rw [hx.start] at h2
    exact h2
  · rename_i ta tb a b
    obtain ⟨rfl, rfl⟩ := hok
    obtain ⟨m, k, n, ha, hb⟩ := matMul_run hr
    obtain ⟨y, hy, hys, hyg⟩ := matMul_value false false (p a) (p b) m k n ha hb
    have hr' : POp.run (.matMul false false) [p a, p b] = .ok v := hr
    rw [hy] at hr'; cases hr'
    have ma := hm a (by simp)
    have mb := hm b (by simp)
    refine moves_of (op := .matMul false false) (W := fun u => [Y a u, Y b u])
      (fun u i => ∑ q ∈ Finset.range k, (Y a u).get [i.getD 0 0, q] * (Y b u).get [q, i.getD 1 0]) (by rw [ma.start, mb.start]; exact hr)
      (fun u => ?_) (fun i hi => ?_)
    · obtain ⟨y', hy', hys', hyg'⟩ := matMul_value false false (Y a u) (Y b u) m k n ((ma.shape u).trans ha) ((mb.shape u).trans hb)
      refine ⟨y', hy', hys'.trans hys.symm, fun i hi => ?_⟩
      rw [hys] at hi
      match i, hi with
      | [i, j], hi =>
        have hi : i < m ∧ j < n := by simpa [InB] using hi
        exact hyg' [] (by simp) i hi.1 j hi.2
    · rw [hys] at hi
      match i, hi with
      | [i, j], hi =>
        have hi : i < m ∧ j < n := by simpa [InB] using hi
        have hk : (p a).shape.getD 1 0 = k := by rw [ha]; rfl
        simp only [jvp, hk]
        refine HasDerivAt.fun_sum fun q hq => ?_
        have hq := Finset.mem_range.1 hq
        refine ((ma.deriv [i, q] (by rw [ha]; simp [matShape, InB, hi.1, hq])).mul (mb.deriv [q, j] (by rw [hb]; simp [matShape, InB, hi.2, hq]))).congr_deriv ?_
        simp only [ma.start, mb.start]; rfl
  · rename_i x
    have hx := hm x (by simp)
    have hv : v = Nd.sumAll (p x) := (Except.ok.inj hr).symm
    subst hv
    refine moves_of (op := .sumAll) (W := fun u => [Y x u]) (fun u _ => ∑ i ∈ idxs (p x).shape, (Y x u).get i) (by rw [hx.start]; exact hr)
      (fun u => ⟨_, rfl, rfl, fun i _ => ?_⟩) (fun i hi => ?_)
    · rw [← hx.shape u]; exact sum_toList (Y x u)
    · exact HasDerivAt.fun_sum fun o ho => hx.deriv o (mem_idxs.1 ho)
  · rename_i keep x a
    obtain ⟨h0, ks, ha, hnd⟩ := hok
    have hx := hm x (by simp)
    have hval : ∀ z : Arr ℝ, z.shape = (p x).shape → ∃ y, POp.run (.reduceSum keep) [z, p a] = .ok y ∧ y.shape = reducedShape ks keep (p x).shape ∧
        ∀ i, InB i (reducedShape ks keep (p x).shape) → y.get i = ∑ o ∈ fibre ks keep (p x).shape i, z.get o := by
      intro z hz
      obtain ⟨y, hy, hs, hF⟩ := reduceForward_spec z ks keep (by rw [hz]; exact h0) hnd (by rw [hz]; exact axes_lt ha)
      refine ⟨y, ?_, by rw [hs, hz], fun i hi => ?_⟩
      · show Nd.reduceSum z (readAxes (p a)) keep = _
        rw [Nd.reduceSum, hz, normAxes_spec ha]; exact hy
      · rw [hF.sum i (by rw [hs, hz]; exact hi), hz]; rfl
    obtain ⟨y, hy, hys, _⟩ := hval (p x) rfl
    have hr' : POp.run (.reduceSum keep) [p x, p a] = .ok v := hr
    rw [hy] at hr'; cases hr'
    refine moves_of (op := .reduceSum keep) (W := fun u => [Y x u, Y a u]) (fun u i => ∑ o ∈ fibre ks keep (p x).shape i, (Y x u).get o)
      (by rw [hx.start, hfix a (by simp [fixedIn])]; exact hr) (fun u => ?_) (fun i hi => ?_)
    · rw [hfix a (by simp [fixedIn])]
      obtain ⟨y', hy', hys', hyg'⟩ := hval (Y x u) (hx.shape u)
      exact ⟨y', hy', hys'.trans hys.symm, fun i hi => hyg' i (by rw [← hys]; exact hi)⟩
    · simp only [jvp, axesOf_eq ha]
      exact HasDerivAt.fun_sum fun o ho => hx.deriv o (mem_idxs.1 (Finset.mem_filter.1 ho).1)
  · rename_i keep x a
    exact vary_reduceMean hok hr (hm x (by simp)) (hfix a (by simp [fixedIn]))
  · rename_i bot lay axis x
    obtain ⟨k, hok⟩ := hok
    exact vary_softmax hok hr (hm x (by simp))
  · rename_i bot lay axis x
    exact vary_logSoftmax hok hr (hm x (by simp))
  · rename_i x l
    exact vary_sigmoidCE hr (hm x (by simp)) (hfix l (by simp [fixedIn]))
  · rename_i bot lay x l
    exact vary_sparseCE hok hr (hm x (by simp)) (hfix l (by simp [fixedIn]))
  · rename_i s
    refine ⟨fun _ => v, fun u => ?_, moves_const v⟩
    rw [← hr]
    simp only [List.map_cons, List.map_nil]
    rw [hfix s (by simp [fixedIn])]
  · rename_i s
    refine ⟨fun _ => v, fun u => ?_, moves_const v⟩
    rw [← hr]
    simp only [List.map_cons, List.map_nil]
    rw [hfix s (by simp [fixedIn])]
  · rename_i x
    have hx := hm x (by simp)
    rw [show v = p x from (Except.ok.inj hr).symm]
    exact ⟨Y x, fun u => rfl, hx⟩
  · rename_i starts stops x
    obtain ⟨los, his, hok⟩ := hok
    exact vary_slice hok hr (hm x (by simp))
  · rename_i x a
    exact vary_squeeze hok hr (hm x (by simp)) (hfix a (by simp [fixedIn]))
  · rename_i inv x a
    obtain ⟨rfl, hok⟩ := hok
    exact vary_transpose hok hr (hm x (by simp)) (hfix a (by simp [fixedIn]))
  · rename_i x a
    obtain ⟨s, hok⟩ := hok
    exact vary_reshape hok hr (hm x (by simp)) (hfix a (by simp [fixedIn]))
  · rename_i norm axis a x
    exact vary_gather hok hr (hm x (by simp)) (hfix a (by simp [fixedIn]))
  · rename_i pad stride dil x w
    exact vary_conv2d hok hr (hm x (by simp)) (hm w (by simp))
  · rename_i bot k pad stride x
    exact vary_maxPool hok hr (hm x (by simp)) (hflat x (by simp))
  · rename_i train ratio mask x
    exact vary_dropout hok hr (hm x (by simp))
  · rename_i x a
    exact vary_maybeReduce (flat := flat) hok hr (hm x (by simp)) (hfix a (by simp [fixedIn]))
  · rename_i x a
    exact vary_maybeBroadcast (flat := flat) hok hr (hm x (by simp)) (hfix a (by simp [fixedIn]))
  · rename_i x a
    exact vary_sumAllGrad (flat := flat) hok hr (hm x (by simp)) (hfix a (by simp [fixedIn]))
  · rename_i mx a b
    exact vary_extremum hok hr (hm a (by simp)) (hm b (by simp))
  · rename_i mx lim keep x a
    exact vary_reduceExt hok hr (hm x (by simp)) (hfix a (by simp [fixedIn]))
  · exact absurd rfl hns
  · exact hok.elim

end Verif.Prog
