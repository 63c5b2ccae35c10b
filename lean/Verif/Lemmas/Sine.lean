import Verif.Lemmas.Conv
import Verif.Lemmas.Lstm
import Verif.Model.Sine
import Verif.Spec.Sine

/-! # The calls of the example `sine` -/

namespace Verif.Prog
open Verif Verif.Nd Verif.Spec

section rules
variable {fs : List (String × Arr ℝ)} {env : List (Arr ℝ)} {vids : List Nat} {α : Type} {σ : St} {Q : St → α → Prop}

/-- Elementwise ops that are smooth everywhere. -/
theorem wp_smooth {a m n : Nat} {f : Nat → Nat → ℝ} {op : EOp} (hop : ∀ r, op.SmoothAt r) (hdiv : ¬ op.DividesArrays) (hs : op ≠ .sign) {rest : Nat → StateM (List Stmt) α}
    (ha : σ.Has a (IsMat m n f)) (hQ : ∀ (τ : St) (c : Nat), σ.Le τ → τ.Has c (IsMat m n fun i j => op.f (f i j)) → Wp fs env vids (rest c) τ Q) :
    Wp fs env vids (emit (.un op a) >>= rest) σ Q := by
  refine wp_call (by simp [Stmt.args, ha.lt]) (v := Nd.map op.f (σ.val a)) rfl ?_ ?_ (by simp) fun τ c hle _ hc => hQ τ c hle (new_has hc ⟨ha.val_eq.1, fun i hi j hj => ?_⟩)
  · refine .inr ⟨fun i _ => smooth_ok (hop _), fun h => absurd h hdiv, fun h => ?_⟩
    have := hop 0
    cases op <;> first | exact h.elim | exact this.elim
  · cases op <;> first | exact absurd rfl hs | trivial
  · show op.f ((σ.val a).get [i, j]) = _
    rw [ha.val_eq.2 i hi j hj]

theorem wp_scale {a b m n : Nat} {c : ℝ} {f : Nat → Nat → ℝ} {rest : Nat → StateM (List Stmt) α} (ha : σ.Has a (IsMat m n f)) (hb : σ.Has b (fun v => v = ofFn [] fun _ => c)) (hm : 0 < m) (hn : 0 < n)
    (hQ : ∀ (τ : St) (k : Nat), σ.Le τ → τ.Has k (IsMat m n fun i j => f i j * c) → Wp fs env vids (rest k) τ Q) :
    Wp fs env vids (emit (.mul a b) >>= rest) σ Q := by
  have hcs : CommonShape (σ.val a).shape (σ.val b).shape [m, n] := by
    rw [ha.val_eq.1, hb.val_eq]
    exact commonShape_left ⟨Nat.zero_le _, fun k h h' => absurd h (Nat.not_lt_zero _)⟩
  obtain ⟨z, h1, h2, h3⟩ := mulOp_spec hcs (by simp [hm, hn])
  refine wp_call (by simp [Stmt.args, ha.lt, hb.lt]) (v := z) h1 ?_ trivial (by simp) fun τ k hle _ hk => hQ τ k hle (new_has hk ⟨h2, fun i hi j hj => ?_⟩)
  · show Inferable _ _
    rw [ha.val_eq.1, hb.val_eq]
    exact ⟨.inr (.inl rfl), by simp [hm, hn], by simp [ofFn]⟩
  · have hI : InB [i, j] [m, n] := .cons hi (.cons hj .nil)
    rw [h3 _ hI, ha.val_eq.1, bIdx_self hI, ha.val_eq.2 i hi j hj, hb.val_eq]
    rfl

theorem wp_sub {a b m n : Nat} {f g : Nat → Nat → ℝ} {rest : Nat → StateM (List Stmt) α} (ha : σ.Has a (IsMat m n f)) (hb : σ.Has b (IsMat m n g)) (hm : 0 < m) (hn : 0 < n)
    (hQ : ∀ (τ : St) (c : Nat), σ.Le τ → τ.Has c (IsMat m n fun i j => f i j - g i j) → Wp fs env vids (rest c) τ Q) :
    Wp fs env vids (emit (.sub a b) >>= rest) σ Q := by
  have hcs : CommonShape (σ.val a).shape (σ.val b).shape [m, n] := by rw [ha.val_eq.1, hb.val_eq.1]; exact commonShape_left (broadcastsTo_self _)
  obtain ⟨z, h1, h2, h3⟩ := subOp_spec hcs
  refine wp_call (by simp [Stmt.args, ha.lt, hb.lt]) (v := z) h1 (by show Inferable _ _; rw [ha.val_eq.1, hb.val_eq.1]; exact inferable_mat hm hn hm) trivial (by simp)
    fun τ c hle _ hc => hQ τ c hle (new_has hc ⟨h2, fun i hi j hj => ?_⟩)
  have hI : InB [i, j] [m, n] := .cons hi (.cons hj .nil)
  rw [h3 _ hI, ha.val_eq.1, hb.val_eq.1, bIdx_self hI, ha.val_eq.2 i hi j hj, hb.val_eq.2 i hi j hj]

/-- The mean of a column. -/
theorem meanAll_wp {a m : Nat} {f : Nat → Nat → ℝ} (ha : σ.Has a (IsMat m 1 f)) (hm : 0 < m) :
    Wp fs env vids (meanAll a) σ (fun τ c => τ.Has c fun v => v.shape = [] ∧ v.get [] = (∑ i ∈ Finset.range m, f i 0) / m) := by
  unfold meanAll
  refine wp_call (by simp [Stmt.args, ha.lt]) (v := ofFn [] fun _ => total (σ.val a)) rfl trivial trivial (by simp) fun τ s hle _ hs => ?_
  have ha' := ha.mono hle
  refine wp_call (by simp [Stmt.args, ha'.lt]) (v := ofFn [] fun _ => ((idxs (τ.val a).shape).card : ℝ)) rfl trivial trivial (by simp) fun υ n hle' hln hn => ?_
  have hs' : υ.Has s (fun v => v = ofFn [] fun _ => total (σ.val a)) := (new_has hs rfl : τ.Has s (fun v => v = ofFn [] fun _ => total (σ.val a))).mono hle'
  have hn' : υ.Has n (fun v => v = ofFn [] fun _ => (m : ℝ)) := new_has hn (by rw [ha'.val_eq.1]; simp [card_idxs, Nd.size])
  have hcs : CommonShape (υ.val s).shape (υ.val n).shape [] := by
    rw [hs'.val_eq, hn'.val_eq]
    exact commonShape_left (broadcastsTo_self _)
  obtain ⟨z, h1, h2, h3⟩ := divOp_spec hcs (by rw [hs'.val_eq]; simp [ofFn]) (fun h => absurd (by rw [hs'.val_eq]; rfl) h)
  have hm0 : (m : ℝ) ≠ 0 := by exact_mod_cast hm.ne'
  refine wp_emit (by simp [Stmt.args, hs'.lt, hn'.lt]) (v := z) h1 ?_ trivial (fun name d h => by cases h) fun ω _ _ hk => ?_
  · show Inferable _ _ ∧ _
    rw [hs'.val_eq, hn'.val_eq]
    exact ⟨⟨.inl rfl, by simp [ofFn], by simp [ofFn]⟩, .inr ⟨by simp [ofFn], fun i _ => hm0⟩⟩
  · refine new_has hk ⟨h2, ?_⟩
    have h4 := h3 [] .nil
    rw [h4, hs'.val_eq, hn'.val_eq]
    show total (σ.val a) / (m : ℝ) = _
    congr 1
    unfold total
    rw [ha.val_eq.1, sum_idxs_two]
    refine Finset.sum_congr rfl fun i hi => ?_
    rw [Finset.sum_range_one, ha.val_eq.2 i (Finset.mem_range.1 hi) 0 Nat.one_pos]

end rules

section
variable {fs : List (String × Arr ℝ)} {vids : List Nat} {W : SineWeights} {others : List (Arr ℝ)} {width batch : Nat} {draw : Arr ℝ}

theorem sineLoss_wp {σ : St} {env : List (Arr ℝ)} (hd : draw.shape = [batch, 1]) (hb : 0 < batch) (hW : W.Shapes width) (he : ∀ v < 3, env[v]? = some (W.get v)) :
    Wp fs env vids (sineLoss draw) σ (fun τ k => τ.Has k fun v => v.shape = [] ∧ v.get [] = W.mse width (inputs draw) batch) := by
  unfold sineLoss
  refine wp_call (by simp [Stmt.args]) (v := draw) rfl trivial trivial (by simp) fun σ1 u e1 _ h1 => ?_
  have hu : σ1.Has u (IsMat batch 1 fun i j => draw.get [i, j]) := new_has h1 ⟨hd, fun _ _ _ _ => rfl⟩
  refine wp_call (by simp [Stmt.args]) (v := ofFn [] fun _ => 10) rfl trivial trivial (by simp) fun σ2 ten e2 _ h2 => ?_
  refine wp_scale (hu.mono e2) (new_has h2 rfl) hb Nat.one_pos fun σ3 x e3 h3 => ?_
  refine wp_smooth (op := .sin) (fun _ => trivial) (fun h => h.elim) (by simp) h3 fun σ4 t e4 h4 => ?_
  refine wp_var (he 0 (by decide)) hW.w1 fun σ5 w1 e5 _ h5 => ?_
  refine wp_matmul ((h3.mono e4).mono e5) h5 fun σ6 a1 e6 h6 => ?_
  refine wp_un (.inr rfl) h6 fun σ7 k1 e7 h7 => ?_
  refine wp_var (he 1 (by decide)) hW.w2 fun σ8 w2 e8 _ h8 => ?_
  refine wp_matmul (h7.mono e8) h8 fun σ9 a2 e9 h9 => ?_
  refine wp_un (.inr rfl) h9 fun σ10 k2 e10 h10 => ?_
  refine wp_var (he 2 (by decide)) hW.w3 fun σ11 w3 e11 _ h11 => ?_
  refine wp_matmul (h10.mono e11) h11 fun σ12 y e12 h12 => ?_
  refine wp_sub h12 ((((((((h4.mono e5).mono e6).mono e7).mono e8).mono e9).mono e10).mono e11).mono e12) hb Nat.one_pos fun σ13 d e13 h13 => ?_
  refine wp_smooth (op := .square) (fun _ => trivial) (fun h => h.elim) (by simp) h13 fun σ14 q e14 h14 => ?_
  refine wp_mono (meanAll_wp h14 hb) fun τ k _ h => ?_
  obtain ⟨v, h1, h2, h3⟩ := h
  refine ⟨v, h1, h2, ?_⟩
  rw [h3, SineWeights.mse]
  congr 1
  refine Finset.sum_congr rfl fun n _ => ?_
  simp only [EOp.f, SineWeights.output, SineWeights.hidden2, SineWeights.hidden1, inputs, Finset.sum_range_one, SineWeights.get, pow_two]

theorem sine_values {env : List (Arr ℝ)} (hd : draw.shape = [batch, 1]) (hb : 0 < batch) (hW : W.Shapes width) (he : ∀ v < 3, env[v]? = some (W.get v)) (vids : List Nat) :
    ∃ vals, St.Good fs env vids ⟨sineCalls draw, vals⟩ ∧
      St.Has ⟨sineCalls draw, vals⟩ (sineResult draw) (fun v => v.shape = [] ∧ v.get [] = W.mse width (inputs draw) batch) := by
  obtain ⟨vals, h1, _, h2⟩ := sineLoss_wp (vids := vids) (fs := fs) (σ := ⟨[], []⟩) hd hb hW he
    ⟨rfl, fun k c hk => (by cases hk), fun name d hm => (by cases hm), fun k c hk => (by cases hk), fun c hc => (by cases hc)⟩
  exact ⟨vals, h1, h2⟩

end

end Verif.Prog
