import Verif.Lemmas.Lstm
import Verif.Lemmas.ProgramConv
import Verif.Spec.Cnn

/-! # Calls on batches of images -/

namespace Verif.Prog
open Verif Verif.Nd Verif.Spec

/-- Images with the elements `f`. -/
def IsImg (n c h w : Nat) (f : Images) (a : Arr ℝ) : Prop := a.shape = [n, c, h, w] ∧ ∀ b < n, ∀ o < c, ∀ i < h, ∀ j < w, a.get [b, o, i, j] = f b o i j

theorem isImg_congr {n c h w : Nat} {f g : Images} {a : Arr ℝ} (ha : IsImg n c h w f a) (hfg : ∀ b < n, ∀ o < c, ∀ i < h, ∀ j < w, f b o i j = g b o i j) : IsImg n c h w g a :=
  ⟨ha.1, fun b hb o ho i hi j hj => (ha.2 b hb o ho i hi j hj).trans (hfg b hb o ho i hi j hj)⟩

theorem has_img_congr {σ : St} {k n c h w : Nat} {f g : Images} (ha : σ.Has k (IsImg n c h w f)) (hfg : ∀ b < n, ∀ o < c, ∀ i < h, ∀ j < w, f b o i j = g b o i j) : σ.Has k (IsImg n c h w g) := by
  obtain ⟨v, h1, h2⟩ := ha
  exact ⟨v, h1, isImg_congr h2 hfg⟩

variable {fs : List (String × Arr ℝ)} {env : List (Arr ℝ)} {vids : List Nat} {α : Type} {σ : St} {Q : St → α → Prop}

theorem wp_good {m : StateM (List Stmt) α} (h : σ.Good fs env vids → Wp fs env vids m σ Q) : Wp fs env vids m σ Q := fun hg => h hg hg

theorem fixed_nil {l : List Stmt} (hs : Scoped l) : ∀ k < l.length, Fixed l [] k := by
  intro k
  induction k using Nat.strong_induction_on with
  | _ k ih =>
    intro hk
    have hk' : l[k]? = some l[k] := List.getElem?_eq_getElem hk
    by_cases hv : ∃ vid, l[k] = .var vid
    · obtain ⟨vid, hv⟩ := hv
      exact .var (hk'.trans (by rw [hv])) (by simp)
    · push_neg at hv
      exact .call hk' hv fun a ha => ih a (hs k _ hk' a ha) (by have := hs k _ hk' a ha; omega)

theorem still_nil (hg : σ.Good fs env []) {k : Nat} (hk : k < σ.vals.length) : σ.Still [] k := fixed_nil hg.inScope k (by rw [← hg.len]; exact hk)

/-- A variable that holds images or filters. -/
theorem wp_varImg {vid n c h w : Nat} {a : Arr ℝ} {rest : Nat → StateM (List Stmt) α} (ha : env[vid]? = some a) (hs : a.shape = [n, c, h, w])
    (hQ : ∀ (τ : St) (k : Nat), σ.Le τ → τ.l[k]? = some (.var vid) → τ.Has k (IsImg n c h w fun b o i j => a.get [b, o, i, j]) → Wp fs env vids (rest k) τ Q) :
    Wp fs env vids (emit (.var vid) >>= rest) σ Q :=
  wp_call (by simp [Stmt.args]) (v := a) ha trivial trivial (by simp) fun τ k hle hl hk => hQ τ k hle hl (new_has hk ⟨hs, fun _ _ _ _ _ _ _ _ => rfl⟩)

/-- A convolution with 3×3 filters that keeps the size. -/
theorem wp_conv {x w n c o s : Nat} {f : Images} {W : Arr ℝ} {rest : Nat → StateM (List Stmt) α} (hx : σ.Has x (IsImg n c s s f)) (hw : σ.Has w (IsImg o c 3 3 fun a b i j => W.get [a, b, i, j]))
    (hn : 0 < n) (hc : 0 < c) (ho : 0 < o) (hs : 0 < s) (hs' : s + 2 < 2 ^ 31)
    (hQ : ∀ (τ : St) (k : Nat), σ.Le τ → τ.Has k (IsImg n o s s fun b p i j => ∑ q ∈ Finset.range c, ∑ a ∈ Finset.range 3, ∑ e ∈ Finset.range 3,
      W.get [p, q, a, e] * (if (1 ≤ i + a ∧ i + a ≤ s) ∧ (1 ≤ j + e ∧ j + e ≤ s) then f b q (i + a - 1) (j + e - 1) else 0)) → Wp fs env vids (rest k) τ Q) :
    Wp fs env vids (emit (.conv2d 1 1 1 x w) >>= rest) σ Q := by
  have hout : outSize s (extent 3 1) 1 1 = s := by simp only [outSize, extent]; omega
  have hext : extent 3 1 ≤ s + 2 * 1 := by simp only [extent]; omega
  obtain ⟨y, cols, h1, ⟨h2, h3⟩, _⟩ := conv2d_spec (σ.val x) (σ.val w) n c s s o 3 3 1 1 1 hx.val_eq.1 hw.val_eq.1 hc hs hs ho (by decide) (by decide) (by decide) hext hext (by omega) (by omega)
  rw [hout] at h2 h3
  refine wp_call (by simp [Stmt.args, hx.lt, hw.lt]) (v := y) ⟨cols, h1⟩ (.inr ?_) trivial (by simp) fun τ k hle _ hk => hQ τ k hle (new_has hk ⟨h2, fun b hb p hp i hi j hj => ?_⟩)
  · refine ⟨n, c, s, s, o, 3, 3, hx.val_eq.1, hw.val_eq.1, ?_, by decide, ⟨hext, by omega, one_dvd _⟩, ⟨hext, by omega, one_dvd _⟩⟩
    rw [hx.val_eq.1, hw.val_eq.1]
    simp only [List.cons_append, List.nil_append, List.mem_cons, List.not_mem_nil, or_false]
    rintro d (rfl | rfl | rfl | rfl | rfl | rfl | rfl | rfl) <;> first | assumption | decide
  · rw [h3 b hb p hp i hi j hj]
    refine Finset.sum_congr rfl fun q hq => Finset.sum_congr rfl fun a ha => Finset.sum_congr rfl fun e he => ?_
    have hq := Finset.mem_range.1 hq
    have ha := Finset.mem_range.1 ha
    have he := Finset.mem_range.1 he
    rw [hw.val_eq.2 p hp q hq a ha e he, padGet]
    by_cases hin : (1 ≤ i + a ∧ i + a ≤ s) ∧ (1 ≤ j + e ∧ j + e ≤ s)
    · rw [if_pos hin, if_pos (by omega)]
      simp only [Nat.mul_one]
      rw [hx.val_eq.2 b hb q hq _ (by omega) _ (by omega)]
    · rw [if_neg hin, if_neg (by omega)]

/-- Adding the same image to all images. -/
theorem wp_addImg {a b n c h w : Nat} {f g : Images} {rest : Nat → StateM (List Stmt) α} (ha : σ.Has a (IsImg n c h w f)) (hb : σ.Has b (IsImg 1 c h w g)) (hn : 0 < n) (hc : 0 < c) (hh : 0 < h) (hw : 0 < w)
    (hQ : ∀ (τ : St) (k : Nat), σ.Le τ → τ.Has k (IsImg n c h w fun b o i j => f b o i j + g 0 o i j) → Wp fs env vids (rest k) τ Q) :
    Wp fs env vids (emit (.add a b) >>= rest) σ Q := by
  have hbc : BroadcastsTo [1, c, h, w] [n, c, h, w] := by
    refine ⟨le_refl _, fun k hk hk' => ?_⟩
    match k, hk with
    | 0, _ => exact .inr rfl
    | 1, _ => exact .inl rfl
    | 2, _ => exact .inl rfl
    | 3, _ => exact .inl rfl
  have hcs : CommonShape (σ.val a).shape (σ.val b).shape [n, c, h, w] := by rw [ha.val_eq.1, hb.val_eq.1]; exact commonShape_left hbc
  obtain ⟨z, h1, h2, h3⟩ := binForward_spec (f := fun u v : ℝ => u + v) add_comm hcs (by rw [ha.val_eq.1]; intro h; cases h) (by rw [hb.val_eq.1]; intro h; cases h)
  refine wp_call (by simp [Stmt.args, ha.lt, hb.lt]) (v := z) h1 (by show Inferable _ _; rw [ha.val_eq.1, hb.val_eq.1]; exact ⟨.inr (.inr rfl), by simp [*], by simp [*]⟩) trivial (by simp)
    fun τ k hle _ hk => hQ τ k hle (new_has hk ⟨h2, fun p hp o ho i hi j hj => ?_⟩)
  have hI : InB [p, o, i, j] [n, c, h, w] := inB_four hp ho hi hj
  have e : bIdx [1, c, h, w] [p, o, i, j] = [0, o, i, j] := by
    have hz : ∀ {d k : Nat}, k < d → (if d = 1 then 0 else k) = k := fun {d k} hk => by split <;> omega
    simp [bIdx, hz ho, hz hi, hz hj]
  rw [h3 _ hI, ha.val_eq.1, hb.val_eq.1, bIdx_self hI, e, ha.val_eq.2 p hp o ho i hi j hj, hb.val_eq.2 0 Nat.one_pos o ho i hi j hj]

theorem relu_f (a : ℝ) : EOp.relu.f a = max a 0 := rfl

theorem relu_flat {a : ℝ} (h : a < 0) : HasDerivAt EOp.relu.f 0 a := by
  refine (hasDerivAt_const a (0 : ℝ)).congr_of_eventuallyEq ?_
  filter_upwards [gt_mem_nhds h] with b hb
  rw [relu_f, max_eq_right hb.le]

theorem relu_diff {a : ℝ} (h : a ≠ 0) : DifferentiableAt ℝ EOp.relu.f a := by
  rcases lt_or_gt_of_ne h with h | h
  · exact (relu_flat h).differentiableAt
  · refine ((hasDerivAt_id a).congr_of_eventuallyEq ?_).differentiableAt
    filter_upwards [lt_mem_nhds h] with b hb
    rw [relu_f, max_eq_left hb.le, id]

theorem pooled_ge (x : Images) (n o i j : Nat) {a e : Nat} (ha : a / 2 = i) (he : e / 2 = j) : x n o a e ≤ pooled x n o i j := by
  have h1 : a = 2 * i ∨ a = 2 * i + 1 := by omega
  have h2 : e = 2 * j ∨ e = 2 * j + 1 := by omega
  unfold pooled
  rcases h1 with rfl | rfl <;> rcases h2 with rfl | rfl <;> simp

theorem pooled_at (x : Images) (n o i j : Nat) : ∃ a e, a / 2 = i ∧ e / 2 = j ∧ pooled x n o i j = x n o a e := by
  unfold pooled
  rcases max_choice (max (x n o (2 * i) (2 * j)) (x n o (2 * i) (2 * j + 1))) (max (x n o (2 * i + 1) (2 * j)) (x n o (2 * i + 1) (2 * j + 1))) with h | h <;> rw [h]
  · rcases max_choice (x n o (2 * i) (2 * j)) (x n o (2 * i) (2 * j + 1)) with h | h <;> rw [h]
    · exact ⟨_, _, by omega, by omega, rfl⟩
    · exact ⟨_, _, by omega, by omega, rfl⟩
  · rcases max_choice (x n o (2 * i + 1) (2 * j)) (x n o (2 * i + 1) (2 * j + 1)) with h | h <;> rw [h]
    · exact ⟨_, _, by omega, by omega, rfl⟩
    · exact ⟨_, _, by omega, by omega, rfl⟩

/-- Rectification and then the greatest of four neighbours. -/
theorem wp_reluPool {bot : ℝ} {a n c s : Nat} {f : Images} {rest : Nat → StateM (List Stmt) α} (ha : σ.Has a (IsImg n c (2 * s) (2 * s) f)) (hs : 0 < s) (hs' : 2 * s + 2 < 2 ^ 63) (hbot : bot < 0)
    (hreg : vids = [] ∨ Clear n c (2 * s) f)
    (hQ : ∀ (τ : St) (k : Nat), σ.Le τ → τ.Has k (IsImg n c s s (pooled (rectified f))) → Wp fs env vids (rest k) τ Q) :
    Wp fs env vids (emit (.un .relu a) >>= fun y => emit (.maxPool bot 2 0 2 y) >>= rest) σ Q := by
  refine wp_good fun hg => ?_
  refine wp_call (by simp [Stmt.args, ha.lt]) (v := Nd.map EOp.relu.f (σ.val a)) rfl ?_ trivial (by simp) fun τ y hle hl hy => ?_
  · rcases hreg with rfl | hreg
    · exact .inl (still_nil hg ha.lt)
    · refine .inr ⟨fun i hi => ⟨trivial, ?_, fun h => by cases h⟩, fun h => h.elim, fun h => h.elim⟩
      rw [ha.val_eq.1] at hi
      match i, hi with
      | [b, o, i, j], hi =>
        have hi := inB4 hi
        rw [ha.val_eq.2 b hi.1 o hi.2.1 i hi.2.2.1 j hi.2.2.2]
        exact relu_diff (hreg b hi.1 o hi.2.1 i hi.2.2.1 j hi.2.2.2).1
  have hy' : τ.Has y (IsImg n c (2 * s) (2 * s) (rectified f)) := new_has hy ⟨ha.val_eq.1, fun b hb o ho i hi j hj => by
    show EOp.relu.f ((σ.val a).get [b, o, i, j]) = _
    rw [ha.val_eq.2 b hb o ho i hi j hj]; rfl⟩
  have hshape := hy'.val_eq.1
  have habove : ∀ i, InB i (τ.val y).shape → bot < (τ.val y).get i := by
    intro i hi
    rw [hshape] at hi
    match i, hi with
    | [b, o, i, j], hi =>
      have hi := inB4 hi
      rw [hy'.val_eq.2 b hi.1 o hi.2.1 i hi.2.2.1 j hi.2.2.2]
      exact lt_of_lt_of_le hbot (le_max_right _ _)
  have hwin : ∀ {i h : Nat}, InWin (2 * s) 2 0 2 i h ↔ h < 2 * s ∧ h / 2 = i := by
    intro i h
    simp only [InWin]
    omega
  have hval : ∀ b o i j q, b < n → o < c → i < s → j < s → IsArgMax (τ.val y) (2 * s) (2 * s) 2 0 2 [b, o, i, j] q → ∃ h w, q = [b, o, h, w] ∧ h < 2 * s ∧ w < 2 * s ∧ h / 2 = i ∧ w / 2 = j ∧
      rectified f b o h w = pooled (rectified f) b o i j := by
    intro b o i j q hb ho hi hj hq
    obtain ⟨b', o', i', j', h, w, e1, rfl, w1, w2, hmax⟩ := hq
    simp only [List.cons.injEq, and_true] at e1
    obtain ⟨rfl, rfl, rfl, rfl⟩ := e1
    have w1 := hwin.1 w1
    have w2 := hwin.1 w2
    refine ⟨h, w, rfl, w1.1, w2.1, w1.2, w2.2, le_antisymm (pooled_ge _ _ _ _ _ w1.2 w2.2) ?_⟩
    obtain ⟨h', w', e1, e2, e3⟩ := pooled_at (rectified f) b o i j
    have l1 : h' < 2 * s := by omega
    have l2 : w' < 2 * s := by omega
    have := hmax h' w' (hwin.2 ⟨l1, e1⟩) (hwin.2 ⟨l2, e2⟩)
    rw [hy'.val_eq.2 b hb o ho h' l1 w' l2, hy'.val_eq.2 b hb o ho h w1.1 w w2.1] at this
    rw [e3]; exact this
  have hout : outSize (2 * s) 2 0 2 = s := by simp only [outSize]; omega
  obtain ⟨z, ind, h1, h2, _, h3⟩ := pool_value (bot := bot) (stride := 2) (k := 2) hshape (by decide) (by decide) (by omega) (by omega) (by omega) (by omega) habove
  rw [hout] at h2
  refine wp_good fun hg' => ?_
  refine wp_call (by simp [Stmt.args, hy'.lt]) (v := z) ⟨ind, h1⟩ ?_ trivial (by simp) fun υ k hle' _ hk => hQ υ k (hle.trans hle') (new_has hk ⟨h2, fun b hb o ho i hi j hj => ?_⟩)
  · rcases hreg with rfl | hreg
    · exact .inl (still_nil hg' hy'.lt)
    · refine .inr ⟨rfl, by decide, by decide, habove, n, c, 2 * s, 2 * s, hshape, ⟨by omega, by omega, by omega⟩, ⟨by omega, by omega, by omega⟩, fun o' q r hq hr hqm hrm => ?_⟩
      obtain ⟨b, o, i, j, hh, ww, rfl, rfl, w1, w2, hm⟩ := id hqm
      rw [hshape] at hq
      have hq := inB4 hq
      have v1 := hwin.1 w1
      have v2 := hwin.1 w2
      obtain ⟨h', w', e0, l1, l2, d1, d2, e1⟩ := hval b o i j _ hq.1 hq.2.1 (by omega) (by omega) hqm
      simp only [List.cons.injEq, and_true, true_and] at e0
      obtain ⟨rfl, rfl⟩ := e0
      obtain ⟨h', w', rfl, l3, l4, d3, d4, e2⟩ := hval b o i j _ hq.1 hq.2.1 (by omega) (by omega) hrm
      obtain ⟨n1, u1⟩ := hreg b hq.1 o hq.2.1 hh l1 ww l2
      obtain ⟨n2, _⟩ := hreg b hq.1 o hq.2.1 h' l3 w' l4
      have hτa := ha.mono hle
      have hge : ∀ p e : Nat, p / 2 = i → e / 2 = j → f b o p e ≤ pooled (rectified f) b o i j := fun p e hp he =>
        le_trans (le_max_left _ _) (pooled_ge (rectified f) b o i j hp he)
      by_cases hpos : 0 < pooled (rectified f) b o i j
      · left
        have p1 : f b o hh ww = pooled (rectified f) b o i j := by
          rw [← e1] at hpos ⊢
          unfold rectified at hpos ⊢
          rw [max_eq_left (le_of_lt ((lt_max_iff.1 hpos).resolve_right (lt_irrefl _)))]
        have p2 : f b o h' w' = pooled (rectified f) b o i j := by
          rw [← e2] at hpos ⊢
          unfold rectified at hpos ⊢
          rw [max_eq_left (le_of_lt ((lt_max_iff.1 hpos).resolve_right (lt_irrefl _)))]
        obtain ⟨a', e', g1, g2, g3⟩ := pooled_at f b o (hh / 2) (ww / 2)
        obtain ⟨rfl, rfl⟩ := u1 (by rw [p1]; exact hpos) (le_antisymm (pooled_ge f b o _ _ rfl rfl) (by rw [g3, p1]; exact hge _ _ (by omega) (by omega))) h' l3 w' l4 (by omega) (by omega) (by rw [p1, p2])
        rfl
      · right
        have hflat : ∀ p e : Nat, p < 2 * s → e < 2 * s → p / 2 = i → e / 2 = j → f b o p e ≠ 0 → FlatIn τ.l τ.val y [b, o, p, e] := fun p e hp he g1 g2 hne => by
          refine ⟨.relu, a, hl, relu_flat ?_⟩
          rw [hτa.val_eq.2 b hq.1 o hq.2.1 p hp e he]
          exact lt_of_le_of_ne (le_trans (hge p e g1 g2) (not_lt.1 hpos)) hne
        exact ⟨hflat hh ww l1 l2 d1 d2 n1, hflat h' w' l3 l4 d3 d4 n2⟩
  · obtain ⟨q, hq, _, hqv, _⟩ := h3 [b, o, i, j] (by rw [h2]; exact inB_four hb ho hi hj)
    obtain ⟨hh, ww, rfl, l1, l2, _, _, e1⟩ := hval b o i j q hb ho hi hj hq
    rw [hqv, hy'.val_eq.2 b hb o ho hh l1 ww l2, e1]

/-- What `dropout` multiplies with. -/
noncomputable def factor (train : Bool) (ratio : ℝ) (mask : List Nat → List Nat → ℝ) (s i : List Nat) : ℝ := if train then mask s i else 1 - ratio

theorem dropout_call {train : Bool} {ratio : ℝ} {mask : List Nat → List Nat → ℝ} {a : Nat} {s : List Nat} {Q : St → Nat → Prop} (ha : a < σ.vals.length) (hs : (σ.val a).shape = s)
    (ht : vids = [] ∨ train = true) (hQ : ∀ (τ : St) (k : Nat) (y : Arr ℝ), σ.Le τ → τ.vals[k]? = some y → y.shape = s → (∀ i, InB i s → y.get i = factor train ratio mask s i * (σ.val a).get i) → Q τ k) :
    Wp fs env vids (emit (.dropout train ratio mask a)) σ Q := by
  subst hs
  refine wp_good fun hg => ?_
  have hok : StmtOk (σ.Still vids) (FlatIn σ.l σ.val) σ.val (.dropout train ratio mask a) := by
    rcases ht with rfl | h
    · exact .inl (still_nil hg ha)
    · exact .inr h
  cases train with
  | false =>
    exact wp_emit (by simp [Stmt.args, ha]) (v := Nd.map (fun r => r * (1 - ratio)) (σ.val a)) (by simp only [Returns]) hok trivial (fun name d h => by cases h) fun τ hle _ hk =>
      hQ τ _ _ hle hk rfl fun i _ => mul_comm _ _
  | true =>
    obtain ⟨y, h1, h2, h3⟩ := dropout_value ratio mask (σ.val a)
    exact wp_emit (by simp [Stmt.args, ha]) (v := y) (by simp only [Returns]; simpa [POp.run] using h1) hok trivial (fun name d h => by cases h) fun τ hle _ hk => hQ τ _ y hle hk h2 h3

theorem wp_dropoutImg {train : Bool} {ratio : ℝ} {mask : List Nat → List Nat → ℝ} {a n c h w : Nat} {f : Images} {Q : St → Nat → Prop} (ha : σ.Has a (IsImg n c h w f)) (ht : vids = [] ∨ train = true)
    (hQ : ∀ (τ : St) (k : Nat), σ.Le τ → τ.Has k (IsImg n c h w fun b o i j => factor train ratio mask [n, c, h, w] [b, o, i, j] * f b o i j) → Q τ k) :
    Wp fs env vids (emit (.dropout train ratio mask a)) σ Q :=
  dropout_call ha.lt ha.val_eq.1 ht fun τ k y hle hk hs hv => hQ τ k hle (new_has hk ⟨hs, fun b hb o ho i hi j hj => by
    rw [hv _ (inB_four hb ho hi hj), ha.val_eq.2 b hb o ho i hi j hj]⟩)

theorem wp_dropoutMat {train : Bool} {ratio : ℝ} {mask : List Nat → List Nat → ℝ} {a m n : Nat} {f : Nat → Nat → ℝ} {Q : St → Nat → Prop} (ha : σ.Has a (IsMat m n f)) (ht : vids = [] ∨ train = true)
    (hQ : ∀ (τ : St) (k : Nat), σ.Le τ → τ.Has k (IsMat m n fun i j => factor train ratio mask [m, n] [i, j] * f i j) → Q τ k) :
    Wp fs env vids (emit (.dropout train ratio mask a)) σ Q :=
  dropout_call ha.lt ha.val_eq.1 ht fun τ k y hle hk hs hv => hQ τ k hle (new_has hk ⟨hs, fun i hi j hj => by
    rw [hv _ (.cons hi (.cons hj .nil)), ha.val_eq.2 i hi j hj]⟩)

theorem readDim_nat (n : Nat) : readDim (n : ℝ) = n := by
  have h1 : ¬ (n : ℝ) = -1 := by have : (0 : ℝ) ≤ n := Nat.cast_nonneg n; intro h; linarith
  have h2 : ¬ (n : ℝ) ≤ -1 := by have : (0 : ℝ) ≤ n := Nat.cast_nonneg n; intro h; linarith
  simp [readDim, h1, h2]

/-- `reshape` with a constant target. -/
theorem wp_reshape {a : Nat} {s t : List Nat} {d : List ℝ} {P : Arr ℝ → Prop} {rest : Nat → StateM (List Stmt) α} (ha : σ.Has a P) (hs : (σ.val a).shape = s)
    (hr : ReshapesTo s (d.map readDim) t)
    (hQ : ∀ (τ : St) (k : Nat) (y : Arr ℝ), σ.Le τ → τ.vals[k]? = some y → y.shape = t → (∀ i, InB i t → y.get i = (σ.val a).get (unflat s (flat t i))) → Wp fs env vids (rest k) τ Q) :
    Wp fs env vids (emit (.const (vec d)) >>= fun k => emit (.reshape a k) >>= rest) σ Q := by
  subst hs
  refine wp_call (by simp [Stmt.args]) (v := vec d) rfl trivial trivial (by simp) fun τ k hle hl hk => ?_
  have hk' : τ.Has k (fun v => v = vec d) := new_has hk rfl
  have ha' : τ.Has a (fun v => v = σ.val a) := by
    obtain ⟨v, h1, _⟩ := ha
    refine ⟨v, prefix_get hle.2 h1, ?_⟩
    rw [St.val, List.getD_eq_getElem?_getD, h1]; rfl
  have hst : τ.Still vids k := .call hl (by simp) (by simp [Stmt.args])
  have hr' : ReshapesTo (σ.val a).shape (readDims (vec d)) t := by
    rw [readDims, toList_vec]; exact hr
  obtain ⟨y, h1, h2, h3⟩ := reshape_ok hr'
  refine wp_call (by simp [Stmt.args, ha'.lt, hk'.lt]) (v := y) ?_ ⟨hst, .inr ⟨t, ?_⟩⟩ hst (by simp) fun υ c hle' _ hc => hQ υ c y (hle.trans hle') hc h2 h3
  · show Nd.reshape (τ.val a) (readDims (τ.val k)) = _
    rw [ha'.val_eq, hk'.val_eq]; exact h1
  · rw [ha'.val_eq, hk'.val_eq]; exact hr'

/-- `reduce_mean(x, &[0], false)` of a column. -/
theorem wp_meanColumn {a n : Nat} {f : Nat → Nat → ℝ} {rest : Nat → StateM (List Stmt) α} (ha : σ.Has a (IsMat n 1 f))
    (hQ : ∀ (τ : St) (k : Nat), σ.Le τ → τ.Has k (fun v => v.shape = [1] ∧ v.get [0] = (∑ i ∈ Finset.range n, f i 0) / n) → Wp fs env vids (rest k) τ Q) :
    Wp fs env vids (emit (.const (vec [0])) >>= fun k => emit (.reduceMean a k false) >>= rest) σ Q := by
  refine wp_call (by simp [Stmt.args]) (v := vec [0]) rfl trivial trivial (by simp) fun τ k hle hl hk => ?_
  have hk' : τ.Has k (fun v => v = vec [0]) := new_has hk rfl
  have ha' := ha.mono hle
  have hst : τ.Still vids k := .call hl (by simp) (by simp [Stmt.args])
  have hax : readAxes (vec [0]) = [0] := by
    have := readAxes_one 0
    simpa using this
  have hF : List.Forall₂ (AxisIs (τ.val a).shape.length) (readAxes (vec [0])) [0] := by
    rw [hax, ha'.val_eq.1]
    exact .cons ⟨Nat.zero_lt_two, .inl rfl⟩ .nil
  obtain ⟨y, h1, h2, h3⟩ := reduceMean_spec (τ.val a) (readAxes (vec [0])) [0] false hF (by rw [ha'.val_eq.1]; intro h; cases h) (by simp)
  have hys : y.shape = [1] := by rw [h2, ha'.val_eq.1]; rfl
  refine wp_call (by simp [Stmt.args, ha'.lt, hk'.lt]) (v := y) ?_ ⟨hst, .inr ⟨(by rw [ha'.val_eq.1]; intro h; cases h), ?_, [0], ?_, by simp, by simp⟩⟩ hst (by simp) fun υ c hle' _ hc =>
    hQ υ c (hle.trans hle') (new_has hc ⟨hys, ?_⟩)
  · show Nd.reduceMean (τ.val a) (readAxes (τ.val k)) false = _
    rw [hk'.val_eq]; exact h1
  · rw [hk'.val_eq]; rfl
  · rw [hk'.val_eq]; exact hF
  · rw [h3 [0] (by rw [hys]; exact .cons Nat.one_pos .nil), ha'.val_eq.1]
    have e : ∑ o ∈ (idxs [n, 1]).filter (fun o => reducedIdx [0] false o = [0]), (τ.val a).get o = ∑ i ∈ Finset.range n, f i 0 := by
      rw [Finset.filter_true_of_mem, sum_idxs_two]
      · exact Finset.sum_congr rfl fun i hi => by simp [ha'.val_eq.2 i (Finset.mem_range.1 hi) 0 Nat.one_pos]
      · intro o ho
        have := mem_idxs.1 ho
        match o, this with
        | [i, j], .cons _ (.cons hj .nil) =>
          have : j = 0 := by omega
          subst this; rfl
    rw [e]
    simp [sizeAt, div_eq_mul_inv]

end Verif.Prog
