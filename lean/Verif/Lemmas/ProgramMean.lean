import Verif.Lemmas.Gather
import Verif.Lemmas.ProgramSoftmax

/-! `reduce_mean` in programs: how the values vary, and what the gradients represent. -/

namespace Verif.Prog
open Verif Verif.Graph Verif.Nd Verif.Hint Verif.Gradient Verif.Spec Verif.Eval

theorem vary_reduceMean {p : Nat → Arr ℝ} {keep : Bool} {x a : Nat} {v : Arr ℝ} (hok : MeanOk (p x) (p a))
    (hr : POp.run (.reduceMean keep) [p x, p a] = .ok v) {Y : Nat → ℝ → Arr ℝ} {t : Nat → List Nat → ℝ} (hx : Moves (Y x) (p x) (t x))
    (hfix : ∀ u, Y a u = p a) :
    ∃ Z, (∀ u, POp.run (.reduceMean keep) [Y x u, Y a u] = .ok (Z u)) ∧ Moves Z v (jvp p t (.reduceMean keep) [x, a]) := by
  obtain ⟨h0, _, ks, ha, hnd, _⟩ := hok
  have hval : ∀ z : Arr ℝ, z.shape = (p x).shape → ∃ y, POp.run (.reduceMean keep) [z, p a] = .ok y ∧ y.shape = reducedShape ks keep (p x).shape ∧
      ∀ i, InB i (reducedShape ks keep (p x).shape) → y.get i = ∑ o ∈ fibre ks keep (p x).shape i, z.get o * (1 / (sizeAt ks 0 (p x).shape : ℝ)) := fun z hz => by
    obtain ⟨y, hy, hs, hv⟩ := reduceMean_spec z (readAxes (p a)) ks keep (by rw [hz]; exact ha) (by rw [hz]; exact h0) hnd
    rw [hz] at hs hv
    refine ⟨y, hy, hs, fun i hi => ?_⟩
    rw [hv i (by rw [hs]; exact hi), Finset.sum_mul]; rfl
  obtain ⟨y, hy, hys, _⟩ := hval (p x) rfl
  rw [hy] at hr; cases hr
  refine moves_of (op := .reduceMean keep) (W := fun u => [Y x u, Y a u])
    (fun u i => ∑ o ∈ fibre ks keep (p x).shape i, (Y x u).get o * (1 / (sizeAt ks 0 (p x).shape : ℝ)))
    (by rw [hx.start, hfix]; exact hy) (fun u => ?_) (fun i hi => ?_)
  · rw [hfix]
    obtain ⟨y', hy', hys', hyg'⟩ := hval (Y x u) (hx.shape u)
    exact ⟨y', hy', hys'.trans hys.symm, fun i hi => hyg' i (by rw [← hys]; exact hi)⟩
  · simp only [jvp, axesOf_eq ha]
    exact HasDerivAt.fun_sum fun o ho => (hx.deriv o (mem_idxs.1 (Finset.mem_filter.1 ho).1)).mul_const _

theorem toList_ints (a : Arr ℝ) : toList (ints a) = readAxes a := by
  simp [toList, ints, readAxes]

/-- The sizes of the reduced axes, as gathered from the shape of the input. -/
theorem gather_sizes {s : List Nat} {a : Arr ℝ} {ks : List Nat} (ha : List.Forall₂ (AxisIs s.length) (readAxes a) ks) (h1 : a.shape.length = 1) (hne : ks ≠ []) :
    ∃ z, POp.run (.gather true 0) [a, encShape s] = .ok z ∧ z.shape = [ks.length] ∧ ∀ i < ks.length, z.get [i] = ((s.getD (ks.getD i 0) 0 : Nat) : ℝ) := by
  match hs : a.shape, h1 with
  | [m], _ =>
    have hm : ks.length = m := by
      rw [← ha.length_eq, ← toList_ints, toList_length]
      show Nd.size a.shape = m
      rw [hs]; simp [Nd.size]
    have hlt := axes_lt ha
    have hes : (encShape s).shape = [s.length] := by simp [encShape, vec, ofFn]
    have hsz : Nd.size (ints a).shape = m := by
      show Nd.size a.shape = m
      rw [hs]; simp [Nd.size]
    obtain ⟨z, hz, hzs, hzv⟩ := gather_of_flat (param := encShape s) (indices := ints a) (axis := 0) (k := 0) (n := s.length) (norm := true) (fl := ks)
      ⟨by rw [hes]; simp, .inl rfl⟩ (by rw [hes]; rfl) (by rw [flatIndices, if_pos rfl, toList_ints]; exact normAxes_spec ha)
      (hm.trans hsz.symm) (by rw [hsz, ← hm]; exact List.length_pos_iff.2 hne) hlt
    refine ⟨z, hz, ?_, fun i hi => ?_⟩
    · rw [hzs, hes]
      show [] ++ a.shape ++ [] = _
      rw [hs, hm]; rfl
    · have := hzv [] [i] [] (by rw [hes]; exact .nil) (by show InB [i] a.shape; rw [hs]; exact .cons (hm ▸ hi) .nil) (by rw [hes]; exact .nil)
      have hfl : flat (ints a).shape [i] = i := by
        show flat a.shape [i] = i
        rw [hs]; simp [flat, Nd.size]
      rw [List.append_nil, List.nil_append, hfl] at this
      rw [this]
      have hk : ks.getD i 0 < s.length := by
        rw [List.getD_eq_getElem?_getD, List.getElem?_eq_getElem hi, Option.getD_some]
        exact hlt _ (List.getElem_mem hi)
      show (s.map (fun n : Nat => (n : ℝ))).getD (ks.getD i 0) 0 = _
      simp only [List.getD_eq_getElem?_getD, List.getElem?_map]
      rw [← List.getD_eq_getElem?_getD, List.getElem?_eq_getElem hk]
      rfl

section
variable {F : List (Feed (Arr ℝ))} {N : List (Arr ℝ)} {g0 : Graph POp} {Z : Nat → Prop} {p : Nat → Arr ℝ}

theorem grad_reduceMean {keep : Bool} {x a : Nat} {yv gv : Arr ℝ} {g g' : Graph POp} {y gy : Nat} {gxs : List (Option Nat)}
    (hok : MeanOk (p x) (p a)) (hctx : GradCtx F N Z p (.reduceMean keep) [x, a] g y gy yv gv)
    (h : gradCmds [x, a] y gy (meanCmds keep) [some (.t 6), none] g = .ok (g', gxs)) :
    Grows g g' ∧ Contr (setting F N) g0 Z p g' ([x, a].map inp) gxs (fun t => inner yv.shape gv.get (jvp p t (.reduceMean keep) [x, a])) := by
  obtain ⟨h0, h1, ks, ha, hnd, hne⟩ := hok
  have hr : Nd.reduceMean (p x) (readAxes (p a)) keep = .ok yv := hctx.run
  obtain ⟨w, hw, hws, _⟩ := reduceMean_spec (p x) (readAxes (p a)) ks keep ha h0 hnd
  have hr := hw.symm.trans hr
  cases hr
  have hgs := hctx.shape.trans hws
  have hx0 : (p x).shape ≠ [] := by
    intro h
    cases ks with
    | nil => exact hne rfl
    | cons k ks => have := axes_lt ha k (by simp); simp [h] at this
  obtain ⟨b, hb, hbs, hbg⟩ := reduceGradCommon_any ha hnd h0 hgs (.inr (.inr hctx.cont.1))
  obtain ⟨z, hz, hzs, hzg⟩ := gather_sizes ha h1 hne
  obtain ⟨len, hl, hls, hlg⟩ := reduceProd_sizes (axes_lt ha) hnd hne hzs hzg
  obtain ⟨r, hd, hrs, hrg⟩ : ∃ r, divOp b len = .ok r ∧ r.shape = (p x).shape ∧
      ∀ o, InB o (p x).shape → r.get o = gv.get (reducedIdx ks keep o) * (1 / (sizeAt ks 0 (p x).shape : ℝ)) := by
    unfold divOp
    simp only [hbs, bind, Except.bind]
    rw [if_neg (by simp [hx0, h0]), if_pos (by simp [hls])]
    simp only [scalarElem_nil hls]
    refine ⟨_, rfl, hbs, fun o ho => ?_⟩
    simp only [Nd.map, hbg o ho, hlg]
  obtain ⟨G, ts, rfl, E⟩ := cmds_evals hctx h (.some (v := encShape (p x).shape) ⟨0, p x, rfl, rfl, rfl⟩ <|
    .some (v := b) ⟨[gv, encShape (p x).shape, p a], .cons rfl (.cons rfl (.cons rfl .nil)), by simp only [POp.run, readShape_enc, bind, Except.bind, hb]⟩ <|
    .some (v := encShape (p x).shape) ⟨0, p x, rfl, rfl, rfl⟩ <|
    .some (v := z) ⟨[p a, encShape (p x).shape], .cons rfl (.cons rfl .nil), hz⟩ <| .some (v := vec [0]) rfl <|
    .some (v := len) ⟨[z, vec [0]], .cons rfl (.cons rfl .nil), by rw [← hl, ← readAxes_one 0, Int.cast_zero]; rfl⟩ <|
    .some (v := r) ⟨b, len, rfl, rfl, hd⟩ .nil)
  refine ⟨G, (contr_some (E 6 r rfl) hrs (cont_div (cont_reduceGrad hctx.cont hb) (by rw [hls]; exact broadcastsTo_nil _) hd) (contr_skip contr_nil)).congr fun t _ => ?_⟩
  rw [add_zero, ← hctx.shape]
  have : inner (p x).shape r.get (t x) = ∑ o ∈ idxs (p x).shape, gv.get (reducedIdx ks keep o) * (t x o * (1 / (sizeAt ks 0 (p x).shape : ℝ))) :=
    Finset.sum_congr rfl fun o ho => by rw [hrg o (mem_idxs.1 ho)]; ring
  rw [this, pullback_adjoint (reducedIdx ks keep) (t := gv.shape) (fun o ho => by rw [hgs]; exact inB_reduced ks keep ho) gv.get]
  simp only [inner, jvp, axesOf_eq ha, fibre]

end

end Verif.Prog
