import Verif.Lemmas.ImageCalls
import Verif.Lemmas.Compare
import Verif.Props.ArgMax

/-! # The calls of the convolutional network -/

namespace Verif.Prog
open Verif Verif.Nd Verif.Spec

variable {fs : List (String × Arr ℝ)} {env : List (Arr ℝ)} {vids : List Nat}

theorem forall₂_mem_right {α β : Type} {P : α → β → Prop} {l : List α} {l' : List β} (h : List.Forall₂ P l l') {b : β} (hb : b ∈ l') : ∃ a ∈ l, P a b := by
  induction h with
  | nil => cases hb
  | cons h _ ih =>
    rcases List.mem_cons.1 hb with rfl | hb
    · exact ⟨_, List.mem_cons_self, h⟩
    · obtain ⟨a, h1, h2⟩ := ih hb
      exact ⟨a, List.mem_cons_of_mem _ h1, h2⟩

theorem forall₂_of_both {α β : Type} {P Q : α → β → Prop} {l : List α} {l' : List β} (h : List.Forall₂ P l l') (hPQ : ∀ a b, a ∈ l → b ∈ l' → P a b → Q a b) : List.Forall₂ Q l l' := by
  induction h with
  | nil => exact .nil
  | cons h _ ih => exact .cons (hPQ _ _ (by simp) (by simp) h) (ih fun a b ha hb => hPQ a b (by simp [ha]) (by simp [hb]))

theorem convPool_wp {bot : ℝ} {mask : List Nat → List Nat → ℝ} {train : Bool} {x w b n c o s : Nat} {f : Images} {W B : Arr ℝ} {σ : St} (hx : σ.Has x (IsImg n c (2 * s) (2 * s) f))
    (hw : σ.Has w (IsImg o c 3 3 fun a b i j => W.get [a, b, i, j])) (hb : σ.Has b (IsImg 1 o (2 * s) (2 * s) fun a b i j => B.get [a, b, i, j])) (hn : 0 < n) (hc : 0 < c) (ho : 0 < o) (hs : 0 < s)
    (hs' : 2 * s + 2 < 2 ^ 31) (hbot : bot < 0) (hreg : vids = [] ∨ Clear n o (2 * s) (convolved (2 * s) c f W B)) (ht : vids = [] ∨ train = true) :
    Wp fs env vids (convPool bot mask train x w b) σ (fun τ k => τ.Has k (IsImg n o s s fun b p i j =>
      factor train (1 / 4) mask [n, o, s, s] [b, p, i, j] * pooled (rectified (convolved (2 * s) c f W B)) b p i j)) := by
  unfold convPool
  refine wp_conv hx hw hn hc ho (by omega) hs' fun σ1 y1 e1 h1 => ?_
  refine wp_addImg h1 (hb.mono e1) hn ho (by omega) (by omega) fun σ2 y2 e2 h2 => ?_
  have h2' : σ2.Has y2 (IsImg n o (2 * s) (2 * s) (convolved (2 * s) c f W B)) := h2
  refine wp_reluPool h2' hs (by omega) hbot hreg fun σ3 y3 e3 h3 => ?_
  exact wp_dropoutImg h3 ht fun σ4 y4 e4 h4 => h4

theorem toImages {n S : Nat} (hn : 0 < n) (hS : 0 < S) : ReshapesTo [n, S * S] (([-1, 1, (S : ℝ), (S : ℝ)] : List ℝ).map readDim) [n, 1, S, S] := by
  have h1 : readDim (-1) = -1 := by simp [readDim]
  have h2 : readDim 1 = 1 := by simpa using readDim_nat 1
  simp only [List.map_cons, List.map_nil, h1, h2, readDim_nat]
  refine ⟨by simp, ?_, .cons (.inl rfl) (.cons (.inr rfl) (.cons (.inr rfl) (.cons (.inr rfl) .nil))), fun k hk => ?_⟩
  · have h3 : ¬ ((S : Int) = -1) := by omega
    simp [List.count_cons, h3]
  · match k, hk with
    | 0, _ => simp; omega
    | 1, hk => simp at hk
    | 2, hk => simp at hk
    | 3, hk => simp at hk
    | k + 4, hk => simp at hk

theorem toVectors {n m t : Nat} (ht : t = m) (hm : 0 < m) {s : List Nat} (hs : s.prod = m) : ReshapesTo (n :: s) (([-1, (t : ℝ)] : List ℝ).map readDim) [n, m] := by
  have h1 : readDim (-1) = -1 := by simp [readDim]
  subst ht
  simp only [List.map_cons, List.map_nil, h1, readDim_nat]
  refine ⟨by simp [hs], ?_, .cons (.inl rfl) (.cons (.inr rfl) .nil), fun k hk => ?_⟩
  · have h3 : ¬ ((t : Int) = -1) := by omega
    simp [List.count_cons, h3]
  · match k, hk with
    | 0, _ => simp; omega
    | 1, hk => simp at hk
    | k + 2, hk => simp at hk

theorem image_pos {n S b i j : Nat} (hb : b < n) (hi : i < S) (hj : j < S) : unflat [n, S * S] (flat [n, 1, S, S] [b, 0, i, j]) = [b, i * S + j] := by
  have hk : i * S + j < S * S := by nlinarith
  have : flat [n, 1, S, S] [b, 0, i, j] = flat [n, S * S] [b, i * S + j] := by simp [flat, Nd.size]
  rw [this]
  exact unflat_flat (.cons hb (.cons hk .nil))

theorem vector_pos {n c s b k : Nat} (hb : b < n) (hk : k < c * (s * s)) :
    unflat [n, c, s, s] (flat [n, c * (s * s)] [b, k]) = [b, k / (s * s), k % (s * s) / s, k % (s * s) % s] ∧ k / (s * s) < c ∧ k % (s * s) / s < s ∧ k % (s * s) % s < s := by
  have hs : 0 < s * s := by
    rcases Nat.eq_zero_or_pos (s * s) with h | h
    · rw [h] at hk; omega
    · exact h
  have hs0 : 0 < s := by
    rcases Nat.eq_zero_or_pos s with h | h
    · subst h; omega
    · exact h
  have b1 : k / (s * s) < c := Nat.div_lt_of_lt_mul (by rw [Nat.mul_comm]; exact hk)
  have b2 : k % (s * s) / s < s := Nat.div_lt_of_lt_mul (Nat.mod_lt _ hs)
  have b3 : k % (s * s) % s < s := Nat.mod_lt _ hs0
  have : flat [n, c * (s * s)] [b, k] = flat [n, c, s, s] [b, k / (s * s), k % (s * s) / s, k % (s * s) % s] := by
    have e1 := Nat.div_add_mod k (s * s)
    have e2 := Nat.div_add_mod (k % (s * s)) s
    simp only [flat, Nd.size, Nat.mul_one, Nat.add_zero]
    have e3 : k / (s * s) * (s * s) = s * s * (k / (s * s)) := Nat.mul_comm _ _
    have e4 : k % (s * s) / s * s = s * (k % (s * s) / s) := Nat.mul_comm _ _
    rw [e3, e4]
    omega
  rw [this]
  exact ⟨unflat_flat (inB_four hb b1 b2 b3), b1, b2, b3⟩

/-- What the network multiplies with. -/
noncomputable def dropsOf (z : CnnSize) (r : CnnRun) (train : Bool) (batch : Nat) : Drops := if train then drawn z r batch else undrawn

section logits
variable {z : CnnSize} {r : CnnRun} {W : CnnWeights} {others : List (Arr ℝ)} {batch : Nat} {x y : Arr ℝ} {label : Nat → Nat}

theorem logits_wp {train : Bool} {σ : St} (hbot : r.bot < 0) (hP : Pictures r.lay z.side z.ch1 z.ch2 z.classes batch x y label) (hW : W.Shapes z.side z.ch1 z.ch2 z.classes) (hf : FedAs fs "x" x)
    (hreg : vids = [] ∨ Clear batch z.ch1 (4 * z.side) (W.pre1 z.side x) ∧ Clear batch z.ch2 (2 * z.side) (W.pre2 z.side z.ch1 (dropsOf z r train batch) x)) (ht : vids = [] ∨ train = true) :
    Wp fs (W.env others) vids (cnnLogits z r train) σ (fun τ q => τ.Has q.1 (IsMat batch z.classes fun n c => W.score z.side z.ch1 (dropsOf z r train batch) x z.ch2 n c) ∧
      List.Forall₂ (fun k vid => τ.l[k]? = some (.var vid)) q.2 [0, 1, 2, 3, 4, 5]) := by
  have hside := hP.side_pos
  have h4 : 4 * z.side = 2 * (2 * z.side) := by omega
  unfold cnnLogits
  refine wp_bind (wp_emit (by simp [Stmt.args]) (v := x) ⟨hf, ?_⟩ (.inl rfl) trivial ?_ fun σ1 e1 l1 h1 => ?_)
  · rw [hP.x_shape]
    refine ⟨rfl, fun k d u h h' => ?_⟩
    match k with
    | 0 => exact .inl (Option.some.inj h).symm
    | 1 => right; rw [← Option.some.inj h, ← Option.some.inj h']
    | k + 2 => cases h
  · intro name d hd
    cases hd
    intro k hk
    simp only [List.mem_cons, List.not_mem_nil, or_false] at hk
    rcases hk with rfl | rfl
    · exact .inl rfl
    · right
      have : 0 < 4 * z.side * (4 * z.side) := by positivity
      exact_mod_cast this
  have hx1 : σ1.Has σ.l.length (fun v => v = x) := new_has h1 rfl
  refine wp_reshape (s := [batch, 4 * z.side * (4 * z.side)]) (t := [batch, 1, 4 * z.side, 4 * z.side]) hx1 (by rw [hx1.val_eq, hP.x_shape]) (toImages hP.batch_pos (by omega)) fun σ2 x2 y2 e2 h2 s2 v2 => ?_
  have hx2 : σ2.Has x2 (IsImg batch 1 (2 * (2 * z.side)) (2 * (2 * z.side)) fun n _ i j => x.get [n, i * (4 * z.side) + j]) := new_has h2 ⟨by rw [s2, h4], fun n hn o ho i hi j hj => by
    rw [← h4] at hi hj
    have : o = 0 := by omega
    subst this
    rw [v2 _ (inB_four hn Nat.one_pos hi hj), image_pos hn hi hj, hx1.val_eq]⟩
  refine wp_varImg (vid := 0) rfl hW.w1 fun σ3 w1 e3 l3 h3 => ?_
  refine wp_varImg (vid := 3) rfl hW.b1 fun σ4 b1 e4 l4 h4' => ?_
  rw [h4] at h4'
  refine wp_bind (wp_mono (convPool_wp (hx2.mono (e3.trans e4)) (h3.mono e4) h4' hP.batch_pos Nat.one_pos hP.ch1_pos (by omega) (by have := hP.side_lt; omega) hbot
    (hreg.imp id fun h => by have := h.1; rw [h4, CnnWeights.pre1, h4] at this; rw [h4]; exact this) ht) fun σ5 z1 e5 h5 => ?_)
  have h5' : σ5.Has z1 (IsImg batch z.ch1 (2 * z.side) (2 * z.side) (W.layer1 z.side (dropsOf z r train batch) x)) := has_img_congr h5 fun n hn o ho i hi j hj => by
    simp only [CnnWeights.layer1, CnnWeights.pre1, ← h4]
    congr 1
    cases train
    · simp [factor, dropsOf, undrawn]; norm_num
    · simp [factor, dropsOf, drawn]
  refine wp_varImg (vid := 1) rfl hW.w2 fun σ6 w2 e6 l6 h6 => ?_
  refine wp_varImg (vid := 4) rfl hW.b2 fun σ7 b2 e7 l7 h7 => ?_
  refine wp_bind (wp_mono (convPool_wp (h5'.mono (e6.trans e7)) (h6.mono e7) h7 hP.batch_pos hP.ch1_pos hP.ch2_pos hside (by have := hP.side_lt; omega) hbot
    (hreg.imp id fun h => h.2) ht) fun σ8 z2 e8 h8 => ?_)
  have h8' : σ8.Has z2 (IsImg batch z.ch2 z.side z.side (W.layer2 z.side z.ch1 (dropsOf z r train batch) x)) := has_img_congr h8 fun n hn o ho i hi j hj => by
    simp only [CnnWeights.layer2, CnnWeights.pre2]
    congr 1
    cases train
    · simp [factor, dropsOf, undrawn]; norm_num
    · simp [factor, dropsOf, drawn]
  have hpos : 0 < z.ch2 * (z.side * z.side) := by have := hP.ch2_pos; positivity
  refine wp_reshape (s := [batch, z.ch2, z.side, z.side]) (t := [batch, z.ch2 * (z.side * z.side)]) h8' h8'.val_eq.1 (toVectors rfl hpos (by simp)) fun σ9 z3 y9 e9 h9 s9 v9 => ?_
  have h9' : σ9.Has z3 (IsMat batch (z.ch2 * (z.side * z.side)) (W.features z.side z.ch1 (dropsOf z r train batch) x)) := new_has h9 ⟨s9, fun n hn k hk => by
    obtain ⟨p1, p2, p3, p4⟩ := vector_pos hn hk
    rw [v9 _ (.cons hn (.cons hk .nil)), p1, h8'.val_eq.2 n hn _ p2 _ p3 _ p4]
    rfl⟩
  refine wp_var (vid := 2) rfl hW.w3 fun σ10 w3 e10 l10 h10 => ?_
  refine wp_matmul (h9'.mono e10) h10 fun σ11 m e11 h11 => ?_
  refine wp_var (vid := 5) rfl hW.b3 fun σ12 b3 e12 l12 h12 => ?_
  refine wp_addRow (h11.mono e12) h12 hP.batch_pos hP.classes_pos fun σ13 z4 e13 h13 => ?_
  refine wp_bind (wp_dropoutMat h13 ht fun σ14 out e14 h14 => ?_)
  have E12 := e13.trans e14
  have E10 := (e11.trans e12).trans E12
  have E7 := ((e8.trans e9).trans e10).trans E10
  have E6 := e7.trans E7
  have E4 := (e5.trans e6).trans E6
  have E3 := e4.trans E4
  refine wp_pure ⟨has_congr h14 fun n hn c hc => ?_, .cons (prefix_get E3.1 l3) (.cons (prefix_get E6.1 l6) (.cons (prefix_get E10.1 l10) (.cons (prefix_get E4.1 l4)
    (.cons (prefix_get E7.1 l7) (.cons (prefix_get E12.1 l12) .nil)))))⟩
  simp only [CnnWeights.score]
  congr 1
  cases train
  · simp [factor, dropsOf, undrawn]; norm_num
  · simp [factor, dropsOf, drawn]

theorem cnnLoss_wp {σ : St} (hbot : r.bot < 0) (hP : Pictures r.lay z.side z.ch1 z.ch2 z.classes batch x y label) (hW : W.Shapes z.side z.ch1 z.ch2 z.classes) (hf : FedAs fs "x" x) (hf' : FedAs fs "y" y)
    (hreg : vids = [] ∨ Clear batch z.ch1 (4 * z.side) (W.pre1 z.side x) ∧ Clear batch z.ch2 (2 * z.side) (W.pre2 z.side z.ch1 (drawn z r batch) x)) :
    Wp fs (W.env others) vids (cnnLoss z r) σ (fun τ q => τ.Has q.1 (fun v => v.shape = [1] ∧ v.get [0] = W.loss z.side z.ch1 (drawn z r batch) x z.ch2 z.classes batch label) ∧
      List.Forall₂ (fun k vid => τ.l[k]? = some (.var vid)) q.2 [0, 1, 2, 3, 4, 5]) := by
  unfold cnnLoss
  refine wp_bind (wp_mono (logits_wp (train := true) hbot hP hW hf hreg (.inr rfl)) ?_)
  rintro σ1 ⟨logits, vars⟩ e1 ⟨h1, hv⟩
  refine wp_bind (wp_emit (by simp [Stmt.args]) (v := y) ⟨hf', ?_⟩ (.inl rfl) trivial ?_ fun σ2 e2 l2 h2 => ?_)
  · rw [hP.y_shape]
    refine ⟨rfl, fun k d u h h' => ?_⟩
    match k with
    | 0 => exact .inl (Option.some.inj h).symm
    | 1 => right; rw [← Option.some.inj h, ← Option.some.inj h']; rfl
    | k + 2 => cases h
  · intro name d hd
    cases hd
    simp
  have hy : σ2.Has σ1.l.length (IsMat batch 1 fun i j => y.get [i, j]) := new_has h2 ⟨hP.y_shape, fun _ _ _ _ => rfl⟩
  refine wp_sparse (sel := label) (h1.mono e2) hy (.call l2 (by simp) (by simp [Stmt.args])) hP.label_is hP.layout fun σ3 loss e3 h3 => ?_
  refine wp_meanColumn h3 fun σ4 mean e4 h4 => ?_
  have e := (e2.trans e3).trans e4
  exact wp_pure ⟨h4, hv.imp fun _ _ h => prefix_get e.1 h⟩

/-- The values of the calls. -/
theorem cnn_values (hbot : r.bot < 0) (hP : Pictures r.lay z.side z.ch1 z.ch2 z.classes batch x y label) (hW : W.Shapes z.side z.ch1 z.ch2 z.classes) (hf : FedAs fs "x" x) (hf' : FedAs fs "y" y)
    (vids : List Nat) (hreg : vids = [] ∨ Clear batch z.ch1 (4 * z.side) (W.pre1 z.side x) ∧ Clear batch z.ch2 (2 * z.side) (W.pre2 z.side z.ch1 (drawn z r batch) x)) :
    ∃ vals, St.Good fs (W.env others) vids ⟨cnnCalls z r, vals⟩ ∧
      St.Has ⟨cnnCalls z r, vals⟩ (cnnResult z r).1 (fun v => v.shape = [1] ∧ v.get [0] = W.loss z.side z.ch1 (drawn z r batch) x z.ch2 z.classes batch label) ∧
      List.Forall₂ (fun k vid => (cnnCalls z r)[k]? = some (.var vid)) (cnnResult z r).2 [0, 1, 2, 3, 4, 5] := by
  obtain ⟨vals, h1, _, h2, h3⟩ := cnnLoss_wp (vids := vids) (σ := ⟨[], []⟩) (others := others) hbot hP hW hf hf' hreg
    ⟨rfl, fun k c hk => (by cases hk), fun name d hm => (by cases hm), fun k c hk => (by cases hk), fun c hc => (by cases hc)⟩
  exact ⟨vals, h1, h2, h3⟩

theorem cnnAccuracy_wp {σ : St} (hbot : r.bot < 0) (hP : Pictures r.lay z.side z.ch1 z.ch2 z.classes batch x y label) (hW : W.Shapes z.side z.ch1 z.ch2 z.classes) (hf : FedAs fs "x" x) (hf' : FedAs fs "y" y)
    (hcopy : ∀ a : Arr ℝ, a.shape = [batch, z.classes] → (r.copy a).length = 2 ∧ Contig [batch, z.classes] (r.copy a))
    (hlow : ∀ n < batch, ∀ c < z.classes, r.bot ≤ W.score z.side z.ch1 undrawn x z.ch2 n c) (predicted : Nat → Nat) (hpred : ∀ n < batch, W.Predicts z.side z.ch1 undrawn x z.ch2 z.classes n (predicted n)) :
    Wp fs (W.env others) [] (cnnAccuracy z r) σ (fun τ k => τ.Has k (fun v => v.shape = [] ∧ v.get [] = ((Finset.range batch).filter (fun n => predicted n = label n)).card / (batch : ℝ))) := by
  unfold cnnAccuracy
  refine wp_bind (wp_mono (logits_wp (train := false) hbot hP hW hf (.inl rfl) (.inl rfl)) ?_)
  rintro σ1 ⟨logits, vars⟩ e1 ⟨h1, _⟩
  have h1' : σ1.Has logits (IsMat batch z.classes fun n c => W.score z.side z.ch1 undrawn x z.ch2 n c) := h1
  have hs := h1'.val_eq.1
  obtain ⟨p, p1, p2, p3⟩ := Verif.Props.C28_argmax_partial r.bot (σ1.val logits) (r.copy (σ1.val logits)) (-1) 1 z.classes true ⟨by rw [hs]; exact Nat.one_lt_two, .inr (by rw [hs]; rfl)⟩ (by rw [hs]; rfl) hP.classes_pos
    (by rw [hs]; exact (hcopy _ hs).1) (.inr ⟨by rw [hs]; exact le_refl 2, by rw [hs]; exact (hcopy _ hs).2⟩) (by
      intro o ho
      rw [hs] at ho
      match o, ho with
      | [n, c], .cons hn (.cons hc .nil) => rw [h1'.val_eq.2 n hn c hc]; exact hlow n hn c hc)
  rw [hs] at p2 p3
  have p2 : p.shape = [batch, 1] := p2
  refine wp_good fun hg1 => ?_
  refine wp_call (by simp [Stmt.args, h1'.lt]) (v := p) p1 (still_nil hg1 h1'.lt) (still_nil hg1 h1'.lt) (by simp) fun σ2 predictions e2 _ h2 => ?_
  have h2' : σ2.Has predictions (IsMat batch 1 fun n _ => (predicted n : ℝ)) := new_has h2 ⟨p2, fun n hn j hj => by
    have : j = 0 := by omega
    subst this
    obtain ⟨c, c1, c2, c3, c4⟩ := p3 [n] (.cons hn .nil)
    have c2 : p.get [n, 0] = (c : ℝ) := c2
    rw [c2]
    obtain ⟨d1, d2, d3⟩ := hpred n hn
    have hv : ∀ k < z.classes, (σ1.val logits).get ([n].insertIdx 1 k) = W.score z.side z.ch1 undrawn x z.ch2 n k := fun k hk => h1'.val_eq.2 n hn k hk
    congr 1
    rcases lt_trichotomy c (predicted n) with h | h | h
    · have := d3 c h
      have h' := c3 (predicted n) d1
      rw [hv _ d1, hv _ c1] at h'
      exact absurd this (not_lt.2 h')
    · exact h
    · have := c4 (predicted n) h
      rw [hv _ d1, hv _ c1] at this
      exact absurd this (not_lt.2 (d2 c c1))⟩
  refine wp_bind (wp_emit (by simp [Stmt.args]) (v := y) ⟨hf', ?_⟩ (.inl rfl) trivial ?_ fun σ3 e3 l3 h3 => ?_)
  · rw [hP.y_shape]
    refine ⟨rfl, fun k d u h h' => ?_⟩
    match k with
    | 0 => exact .inl (Option.some.inj h).symm
    | 1 => right; rw [← Option.some.inj h, ← Option.some.inj h']; rfl
    | k + 2 => cases h
  · intro name d hd
    cases hd
    simp
  have hy : σ3.Has σ2.l.length (IsMat batch 1 fun i j => y.get [i, j]) := new_has h3 ⟨hP.y_shape, fun _ _ _ _ => rfl⟩
  have h3' := h2'.mono e3
  obtain ⟨q, q1, q2, q3⟩ := cmpOp_same (f := fun u v => truth (Compares .eq u v)) (x0 := σ3.val predictions) (x1 := σ3.val σ2.l.length) (h3'.val_eq.1.trans hy.val_eq.1.symm) (by rw [h3'.val_eq.1]; simp)
  refine wp_good fun hg3 => ?_
  refine wp_call (by simp [Stmt.args, h3'.lt, hy.lt]) (v := q) q1 ⟨still_nil hg3 h3'.lt, still_nil hg3 hy.lt⟩ ⟨still_nil hg3 h3'.lt, still_nil hg3 hy.lt⟩ (by simp) fun σ4 eq e4 _ h4 => ?_
  have h4' : σ4.Has eq (IsMat batch 1 fun n _ => if predicted n = label n then 1 else 0) := new_has h4 ⟨by rw [q2, h3'.val_eq.1], fun n hn j hj => by
    have : j = 0 := by omega
    subst this
    show q.get [n, 0] = if predicted n = label n then (1 : ℝ) else 0
    rw [q3 _ (by rw [h3'.val_eq.1]; exact .cons hn (.cons Nat.one_pos .nil)), h3'.val_eq.2 n hn 0 Nat.one_pos, show (σ3.val σ2.l.length).get [n, 0] = y.get [n, 0] from hy.val_eq.2 n hn 0 Nat.one_pos, (hP.label_is n hn).1]
    simp only [truth, Compares, Nat.cast_inj]⟩
  refine wp_call (by simp [Stmt.args]) (v := vec [0, 1]) rfl trivial trivial (by simp) fun σ5 axes e5 l5 h5 => ?_
  have hk : σ5.Has axes (fun v => v = vec [0, 1]) := new_has h5 rfl
  have ha := h4'.mono e5
  have hax : readAxes (vec [0, 1]) = [0, 1] := by
    simp [readAxes, toList_vec]
  have hF : List.Forall₂ (AxisIs (σ5.val eq).shape.length) (readAxes (vec [0, 1])) [0, 1] := by
    rw [hax, ha.val_eq.1]
    exact .cons ⟨Nat.zero_lt_two, .inl rfl⟩ (.cons ⟨Nat.one_lt_two, .inl rfl⟩ .nil)
  obtain ⟨m, m1, m2, m3⟩ := reduceMean_spec (σ5.val eq) (readAxes (vec [0, 1])) [0, 1] false hF (by rw [ha.val_eq.1]; intro h; cases h) (by simp)
  have hms : m.shape = [] := by rw [m2, ha.val_eq.1]; rfl
  refine wp_good fun hg5 => ?_
  refine wp_emit (by simp [Stmt.args, ha.lt, hk.lt]) (v := m) ?_ ⟨still_nil hg5 hk.lt, .inl (still_nil hg5 ha.lt)⟩ (still_nil hg5 hk.lt) (fun name d h => by cases h) fun σ6 e6 _ h6 => new_has h6 ⟨hms, ?_⟩
  · show Nd.reduceMean (σ5.val eq) (readAxes (σ5.val axes)) false = _
    rw [hk.val_eq]; exact m1
  · rw [m3 [] (by rw [hms]; exact .nil), ha.val_eq.1]
    have e : ∑ o ∈ (idxs [batch, 1]).filter (fun o => reducedIdx [0, 1] false o = []), (σ5.val eq).get o = ∑ n ∈ Finset.range batch, if predicted n = label n then (1 : ℝ) else 0 := by
      rw [Finset.filter_true_of_mem, sum_idxs_two]
      · exact Finset.sum_congr rfl fun i hi => by simp [ha.val_eq.2 i (Finset.mem_range.1 hi) 0 Nat.one_pos]
      · intro o ho
        have := mem_idxs.1 ho
        match o, this with
        | [i, j], _ => rfl
    rw [e, Finset.sum_boole]
    simp [sizeAt, div_eq_mul_inv]

/-- The values of the calls of the test. -/
theorem cnnTest_values (hbot : r.bot < 0) (hP : Pictures r.lay z.side z.ch1 z.ch2 z.classes batch x y label) (hW : W.Shapes z.side z.ch1 z.ch2 z.classes) (hf : FedAs fs "x" x) (hf' : FedAs fs "y" y)
    (hcopy : ∀ a : Arr ℝ, a.shape = [batch, z.classes] → (r.copy a).length = 2 ∧ Contig [batch, z.classes] (r.copy a))
    (hlow : ∀ n < batch, ∀ c < z.classes, r.bot ≤ W.score z.side z.ch1 undrawn x z.ch2 n c) (predicted : Nat → Nat) (hpred : ∀ n < batch, W.Predicts z.side z.ch1 undrawn x z.ch2 z.classes n (predicted n)) :
    ∃ vals, St.Good fs (W.env others) [] ⟨cnnTestCalls z r, vals⟩ ∧
      St.Has ⟨cnnTestCalls z r, vals⟩ (cnnTestResult z r) (fun v => v.shape = [] ∧ v.get [] = ((Finset.range batch).filter (fun n => predicted n = label n)).card / (batch : ℝ)) := by
  obtain ⟨vals, h1, _, h2⟩ := cnnAccuracy_wp (σ := ⟨[], []⟩) (others := others) hbot hP hW hf hf' hcopy hlow predicted hpred
    ⟨rfl, fun k c hk => (by cases hk), fun name d hm => (by cases hm), fun k c hk => (by cases hk), fun c hc => (by cases hc)⟩
  exact ⟨vals, h1, h2⟩

end logits

theorem cnn_len (z : CnnSize) (r : CnnRun) : (cnnCalls z r).length = 28 := by
  simp only [cnnCalls, cnnLoss, cnnLogits, convPool, emit, bind, StateT.bind, pure, StateT.pure, List.length_append, List.length_singleton, List.length_nil]

theorem cnnTest_len (z : CnnSize) (r : CnnRun) : (cnnTestCalls z r).length = 29 := by
  simp only [cnnTestCalls, cnnAccuracy, cnnLogits, convPool, emit, bind, StateT.bind, pure, StateT.pure, List.length_append, List.length_singleton, List.length_nil]

end Verif.Prog
