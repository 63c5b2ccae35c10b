import Verif.Lemmas.MatrixCalls
import Verif.Props.Elementwise
import Verif.Model.Lstm
import Verif.Spec.Lstm

/-! # The calls of the LSTM -/

namespace Verif.Prog
open Verif Verif.Nd Verif.Spec

variable {fs : List (String × Arr ℝ)} {env : List (Arr ℝ)} {vids : List Nat}

theorem sigma_eq (a : ℝ) : EOp.sigmoid.f a = sigma a := Verif.Props.C36_forward.1 a

theorem isMat_congr {m n : Nat} {f g : Nat → Nat → ℝ} {a : Arr ℝ} (h : IsMat m n f a) (hfg : ∀ i < m, ∀ j < n, f i j = g i j) : IsMat m n g a :=
  ⟨h.1, fun i hi j hj => (h.2 i hi j hj).trans (hfg i hi j hj)⟩

theorem has_congr {σ : St} {k m n : Nat} {f g : Nat → Nat → ℝ} (h : σ.Has k (IsMat m n f)) (hfg : ∀ i < m, ∀ j < n, f i j = g i j) : σ.Has k (IsMat m n g) := by
  obtain ⟨v, h1, h2⟩ := h
  exact ⟨v, h1, isMat_congr h2 hfg⟩

/-- The weights are the arrays of these calls. -/
structure WeightsAt (W : LstmWeights) (dim : Nat) (σ : St) (wx wh b : Nat) : Prop where
  wx : σ.Has wx (IsMat dim (4 * dim) fun i j => W.wx.get [i, j])
  wh : σ.Has wh (IsMat dim (4 * dim) fun i j => W.wh.get [i, j])
  b : σ.Has b (IsMat 1 (4 * dim) fun i j => W.b.get [i, j])

theorem WeightsAt.mono {W : LstmWeights} {dim : Nat} {σ τ : St} {wx wh b : Nat} (h : WeightsAt W dim σ wx wh b) (hle : σ.Le τ) : WeightsAt W dim τ wx wh b :=
  ⟨h.wx.mono hle, h.wh.mono hle, h.b.mono hle⟩

/-- The arrays of the last output and cell. -/
def LastIs (n dim : Nat) (h c : Vecs) (σ : St) : Option (Nat × Nat) → Prop
  | some (a, b) => σ.Has a (IsMat n dim h) ∧ σ.Has b (IsMat n dim c)
  | none => h = (fun _ _ => 0) ∧ c = fun _ _ => 0

theorem LastIs.mono {n dim : Nat} {h c : Vecs} {σ τ : St} {last : Option (Nat × Nat)} (hl : LastIs n dim h c σ last) (hle : σ.Le τ) : LastIs n dim h c τ last := by
  match last, hl with
  | none, hl => exact hl
  | some (a, b), hl => exact ⟨hl.1.mono hle, hl.2.mono hle⟩

/-- The body of `step` after the last output and cell are known. -/
def lstmBody (dim wx wh b x lastOutput lastCell : Nat) : StateM (List Stmt) (Nat × Nat) := do
  let p ← emit (.matmul x wx)
  let q ← emit (.matmul lastOutput wh)
  let pq ← emit (.add p q)
  let xh ← emit (.add pq b)
  let i ← emit (.slice xh [0, 0] [-1, dim])
  let f ← emit (.slice xh [0, dim] [-1, 2 * dim])
  let c ← emit (.slice xh [0, 2 * dim] [-1, 3 * dim])
  let o ← emit (.slice xh [0, 3 * dim] [-1, 4 * dim])
  let sf ← emit (.un .sigmoid f)
  let keep ← emit (.mul sf lastCell)
  let si ← emit (.un .sigmoid i)
  let tc ← emit (.un .tanh c)
  let new ← emit (.mul si tc)
  let cell ← emit (.add keep new)
  let so ← emit (.un .sigmoid o)
  let th ← emit (.un .tanh cell)
  let h ← emit (.mul so th)
  pure (h, cell)

theorem body_wp {W : LstmWeights} {n dim wx wh b x lo lc : Nat} {X H C : Vecs} {σ : St} (hn : 0 < n) (hd : 0 < dim) (hW : WeightsAt W dim σ wx wh b) (hx : σ.Has x (IsMat n dim X))
    (hh : σ.Has lo (IsMat n dim H)) (hc : σ.Has lc (IsMat n dim C)) :
    Wp fs env vids (lstmBody dim wx wh b x lo lc) σ (fun τ r => τ.Has r.1 (IsMat n dim (W.output dim X H C)) ∧ τ.Has r.2 (IsMat n dim (W.cell dim X H C))) := by
  have h4 : 0 < 4 * dim := by omega
  unfold lstmBody
  refine wp_matmul hx hW.wx fun σ1 p e1 hp => ?_
  refine wp_matmul (hh.mono e1) (hW.wh.mono e1) fun σ2 q e2 hq => ?_
  refine wp_add (hp.mono e2) hq hn h4 fun σ3 pq e3 hpq => ?_
  have E3 := (e1.trans e2).trans e3
  refine wp_addRow hpq (hW.b.mono E3) hn h4 fun σ4 xh e4 hxh => ?_
  have E4 := E3.trans e4
  have hg : σ4.Has xh (IsMat n (4 * dim) (W.gate dim X H)) := hxh
  clear hxh hpq hq hp
  refine wp_slice hg (lo := 0) (hi := dim) (len := dim) (by omega) (by omega) (by simp) (by simp) fun σ5 i e5 hi _ => ?_
  refine wp_slice (hg.mono e5) (lo := dim) (hi := 2 * dim) (len := dim) (by omega) (by omega) (by simp) (by simp) fun σ6 f e6 hf _ => ?_
  refine wp_slice (hg.mono (e5.trans e6)) (lo := 2 * dim) (hi := 3 * dim) (len := dim) (by omega) (by omega) (by simp) (by simp) fun σ7 c e7 hc' _ => ?_
  refine wp_slice (hg.mono ((e5.trans e6).trans e7)) (lo := 3 * dim) (hi := 4 * dim) (len := dim) (by omega) (by omega) (by simp) (by simp) fun σ8 o e8 ho _ => ?_
  refine wp_un (.inl rfl) (hf.mono (e7.trans e8)) fun σ9 sf e9 hsf => ?_
  have E9 := (((E4.trans e5).trans (e6.trans e7)).trans e8).trans e9
  refine wp_mul hsf (hc.mono E9) hn hd fun σ10 keep e10 hkeep => ?_
  have F : σ5.Le σ10 := (((e6.trans e7).trans e8).trans e9).trans e10
  refine wp_un (.inl rfl) (hi.mono F) fun σ11 si e11 hsi => ?_
  refine wp_un (.inr rfl) (hc'.mono (((e8.trans e9).trans e10).trans e11)) fun σ12 tc e12 htc => ?_
  refine wp_mul (hsi.mono e12) htc hn hd fun σ13 new e13 hnew => ?_
  refine wp_add (hkeep.mono ((e11.trans e12).trans e13)) hnew hn hd fun σ14 cell e14 hcell => ?_
  have hcell' : σ14.Has cell (IsMat n dim (W.cell dim X H C)) := has_congr hcell fun i _ j _ => by
    simp only [sigma_eq, Nat.zero_add, LstmWeights.cell]; rfl
  refine wp_un (.inl rfl) (ho.mono (((((e9.trans e10).trans e11).trans e12).trans e13).trans e14)) fun σ15 so e15 hso => ?_
  refine wp_un (.inr rfl) (hcell'.mono e15) fun σ16 th e16 hth => ?_
  refine wp_mul (hso.mono e16) hth hn hd fun σ17 h e17 hh' => ?_
  refine wp_pure ⟨has_congr hh' fun i _ j _ => ?_, hcell'.mono ((e15.trans e16).trans e17)⟩
  simp only [sigma_eq, LstmWeights.output]; rfl

theorem step_wp {W : LstmWeights} {n dim wx wh b x : Nat} {X H C : Vecs} {σ : St} {last : Option (Nat × Nat)} (hn : 0 < n) (hd : 0 < dim) (hW : WeightsAt W dim σ wx wh b)
    (hx : σ.Has x (IsMat n dim X)) (hl : LastIs n dim H C σ last) :
    Wp fs env vids (lstmStep dim wx wh b x last) σ (fun τ r => τ.Has r.1 (IsMat n dim (W.output dim X H C)) ∧ τ.Has r.2 (IsMat n dim (W.cell dim X H C))) := by
  match last, hl with
  | some (lo, lc), ⟨h1, h2⟩ =>
    have e : lstmStep dim wx wh b x (some (lo, lc)) = lstmBody dim wx wh b x lo lc := by
      simp only [lstmStep, lstmBody, pure_bind]
    rw [e]
    exact body_wp hn hd hW hx h1 h2
  | none, ⟨h1, h2⟩ =>
    subst h1 h2
    have e : lstmStep dim wx wh b x none = (emit (.shapeOf x) >>= fun s => emit (.zeros s) >>= fun lo => emit (.shapeOf x) >>= fun s => emit (.zeros s) >>= fun lc => lstmBody dim wx wh b x lo lc) := by
      simp only [lstmStep, lstmBody]
    rw [e]
    refine wp_zeros hx fun τ lo e1 h1 => ?_
    refine wp_zeros (hx.mono e1) fun υ lc e2 h2 => ?_
    have e := e1.trans e2
    exact body_wp hn hd (hW.mono e) (hx.mono e) (h1.mono e2) h2

/-- The tensors made before the loop. -/
structure LstmReady (W : LstmWeights) (vids : List Nat) (n dim vocab words : Nat) (word : Nat → Nat → Nat) (σ : St) (wx wh b table pred sentences : Nat) : Prop where
  weights : WeightsAt W dim σ wx wh b
  table : σ.Has table (IsMat vocab dim fun i j => W.table.get [i, j])
  pred : σ.Has pred (IsMat dim vocab fun i j => W.pred.get [i, j])
  sents : σ.Has sentences (IsMat n (words + 1) fun r t => word r t)
  still : σ.Still vids sentences

theorem LstmReady.mono {W : LstmWeights} {n dim vocab words : Nat} {word : Nat → Nat → Nat} {σ τ : St} {wx wh b table pred sentences : Nat}
    (h : LstmReady W vids n dim vocab words word σ wx wh b table pred sentences) (hle : σ.Le τ) : LstmReady W vids n dim vocab words word τ wx wh b table pred sentences :=
  ⟨h.weights.mono hle, h.table.mono hle, h.pred.mono hle, h.sents.mono hle, h.still.mono hle⟩

/-- The loss of word `t + 1`. -/
noncomputable def wordLoss (W : LstmWeights) (dim vocab : Nat) (word : Nat → Nat → Nat) (t r : Nat) : ℝ :=
  -Real.log (Real.exp (W.score dim word (t + 1) r (word r (t + 1))) / ∑ v ∈ Finset.range vocab, Real.exp (W.score dim word (t + 1) r v))

theorem word_wp {bot : ℝ} {lay : Arr ℝ → List Int} {W : LstmWeights} {n dim vocab words t : Nat} {word : Nat → Nat → Nat} {s : Arr ℝ} {σ : St} {wx wh b table pred sentences : Nat} {last : Option (Nat × Nat)}
    (hS : Sentences lay n dim vocab words s word) (hR : LstmReady W vids n dim vocab words word σ wx wh b table pred sentences) (ht : t < words)
    (hl : LastIs n dim (W.state dim word t).1 (W.state dim word t).2 σ last) :
    Wp fs env vids (lstmWord bot lay dim wx wh b table pred sentences t last) σ (fun τ r => τ.Has r.1 (IsMat n 1 fun i _ => wordLoss W dim vocab word t i) ∧
      LastIs n dim (W.state dim word (t + 1)).1 (W.state dim word (t + 1)).2 τ (some r.2)) := by
  unfold lstmWord
  refine wp_slice hR.sents (lo := t) (hi := t + 1) (len := 1) rfl (by omega) (by simp) (by simp) fun σ1 cur e1 hcur scur => ?_
  refine wp_slice (hR.sents.mono e1) (lo := t + 1) (hi := t + 2) (len := 1) rfl (by omega) (by push_cast; rfl) (by push_cast; rfl) fun σ2 next e2 hnext snext => ?_
  refine wp_embed (sel := fun r => word r t) (hcur.mono e2) ((scur hR.still).mono e2) (hR.table.mono (e1.trans e2)) hS.n_pos (fun i hi => ⟨rfl, (hS.word_is i hi t (by omega)).2⟩) fun σ3 x e3 hx => ?_
  have E3 := (e1.trans e2).trans e3
  have hx' : σ3.Has x (IsMat n dim (W.embed word t)) := hx
  refine wp_bind (wp_mono (step_wp hS.n_pos hS.dim_pos (hR.weights.mono E3) hx' (hl.mono E3)) ?_)
  rintro σ4 ⟨h, c⟩ e4 ⟨hh, hc⟩
  have E4 := E3.trans e4
  refine wp_matmul hh (hR.pred.mono E4) fun σ5 prediction e5 hp => ?_
  refine wp_sparse (sel := fun r => word r (t + 1)) hp (hnext.mono ((e3.trans e4).trans e5)) ((snext (hR.still.mono e1)).mono ((e3.trans e4).trans e5))
    (fun i hi => ⟨rfl, (hS.word_is i hi (t + 1) (by omega)).2⟩) hS.layout fun σ6 loss e6 hloss => ?_
  exact wp_pure ⟨hloss, hh.mono (e5.trans e6), hc.mono (e5.trans e6)⟩

theorem words_wp {bot : ℝ} {lay : Arr ℝ → List Int} {W : LstmWeights} {n dim vocab words : Nat} {word : Nat → Nat → Nat} {s : Arr ℝ} {σ : St} {wx wh b table pred sentences : Nat}
    (hS : Sentences lay n dim vocab words s word) (hR : LstmReady W vids n dim vocab words word σ wx wh b table pred sentences) (t : Nat) (ht : t ≤ words) :
    Wp fs env vids (lstmWords bot lay dim wx wh b table pred sentences t) σ (fun τ r => r.1.length = t ∧ (∀ k < t, ∃ j, r.1[k]? = some j ∧ τ.Has j (IsMat n 1 fun i _ => wordLoss W dim vocab word k i)) ∧
      LastIs n dim (W.state dim word t).1 (W.state dim word t).2 τ r.2) := by
  induction t with
  | zero => exact wp_pure ⟨rfl, fun k hk => by omega, rfl, rfl⟩
  | succ t ih =>
    refine wp_bind (wp_mono (ih (by omega)) ?_)
    rintro τ ⟨losses, last⟩ e1 ⟨h0, h1, h2⟩
    refine wp_bind (wp_mono (word_wp hS (hR.mono e1) (by omega) h2) ?_)
    rintro υ ⟨loss, h, c⟩ e2 ⟨h3, h4⟩
    refine wp_pure ⟨by simpa using h0, fun k hk => ?_, h4⟩
    by_cases hkt : k < t
    · obtain ⟨j, hj, hj'⟩ := h1 k hkt
      exact ⟨j, by rw [List.getElem?_append_left (by simpa [h0] using hkt)]; exact hj, hj'.mono e2⟩
    · have : k = t := by omega
      subst this
      exact ⟨loss, by subst h0; simp, h3⟩

theorem wp_var {α : Type} {σ : St} {Q : St → α → Prop} {vid m n : Nat} {a : Arr ℝ} {rest : Nat → StateM (List Stmt) α} (h : env[vid]? = some a) (hs : a.shape = [m, n])
    (hQ : ∀ (τ : St) (k : Nat), σ.Le τ → τ.l[k]? = some (.var vid) → τ.Has k (IsMat m n fun i j => a.get [i, j]) → Wp fs env vids (rest k) τ Q) :
    Wp fs env vids (emit (.var vid) >>= rest) σ Q :=
  wp_call (by simp [Stmt.args]) (v := a) h trivial trivial (by simp) fun τ k hle hl hk => hQ τ k hle hl (new_has hk ⟨hs, fun _ _ _ _ => rfl⟩)

theorem addN_wp {m n : Nat} {w : Nat} {F : Nat → Nat → Nat → ℝ} {σ : St} {losses : List Nat} (hw : 0 < w) (hlen : losses.length = w)
    (h : ∀ k < w, ∃ j, losses[k]? = some j ∧ σ.Has j (IsMat m n (F k))) :
    Wp fs env vids (emitAddN losses) σ (fun τ r => τ.Has r (IsMat m n fun i j => ∑ k ∈ Finset.range w, F k i j)) := by
  have hmem : ∀ z ∈ losses, ∃ k < w, σ.Has z (IsMat m n (F k)) := by
    intro z hz
    obtain ⟨k, hk⟩ := List.mem_iff_getElem?.1 hz
    have hkw : k < w := by rw [← hlen]; exact (List.getElem?_eq_some_iff.1 hk).1
    obtain ⟨j, hj, hj'⟩ := h k hkw
    rw [hj] at hk
    exact ⟨k, hkw, by rw [← Option.some.inj hk]; exact hj'⟩
  obtain ⟨y, h1, h2, h3⟩ := addN_value (losses.map σ.val) [m, n] (by intro h'; rw [List.map_eq_nil_iff] at h'; subst h'; simp at hlen; omega)
    (by
      intro x hx
      obtain ⟨z, hz, rfl⟩ := List.mem_map.1 hx
      obtain ⟨k, _, hk⟩ := hmem z hz
      exact hk.val_eq.1)
  have hy : IsMat m n (fun i j => ∑ k ∈ Finset.range w, F k i j) y := by
    refine ⟨h2, fun i hi j hj => ?_⟩
    rw [h3 [i, j] (.cons hi (.cons hj .nil)), List.map_map]
    have : losses.map ((fun x : Arr ℝ => x.get [i, j]) ∘ σ.val) = (List.range w).map (fun k => F k i j) := by
      refine List.ext_getElem (by simp [hlen]) fun k h1 _ => ?_
      have hk : k < w := by simpa [hlen] using h1
      obtain ⟨q, hq, hq'⟩ := h k hk
      obtain ⟨hq1, hq2⟩ := List.getElem?_eq_some_iff.1 hq
      simp only [List.getElem_map, Function.comp, List.getElem_range, hq2]
      exact hq'.val_eq.2 i hi j hj
    rw [this]
    rfl
  match losses, hlen, h, hmem, h1 with
  | [], hlen, _, _, _ => simp at hlen; omega
  | [x], _, _, hmem, h1 =>
    obtain ⟨k, _, v, hv, _⟩ := hmem x (by simp)
    refine wp_pure ⟨v, hv, ?_⟩
    have : σ.val x = y := Except.ok.inj h1
    rw [St.val, List.getD_eq_getElem?_getD, hv, Option.getD_some] at this
    rw [this]; exact hy
  | x :: z :: zs, _, _, hmem, h1 =>
    refine wp_emit ?_ (v := y) h1 ?_ trivial (fun name d hh => by cases hh) fun τ _ _ hτ => new_has hτ hy
    · intro a ha
      obtain ⟨k, _, hk⟩ := hmem a ha
      exact hk.lt
    · intro a ha
      obtain ⟨k, _, hk⟩ := hmem a (List.mem_cons_of_mem _ ha)
      obtain ⟨k', _, hk'⟩ := hmem x (by simp)
      rw [hk.val_eq.1, hk'.val_eq.1]

theorem loss_wp {bot : ℝ} {lay : Arr ℝ → List Int} {W : LstmWeights} {unused : Arr ℝ} {n dim vocab words : Nat} {word : Nat → Nat → Nat} {s : Arr ℝ} {σ : St}
    (hS : Sentences lay n dim vocab words s word) (hW : W.Shapes dim vocab) (hf : FedAs fs "sents" s) :
    Wp fs (W.env unused) vids (lstmLoss bot lay dim words) σ (fun τ r => τ.Has r.1 (IsMat n 1 fun i _ => W.loss dim vocab words word i) ∧
      List.Forall₂ (fun k vid => τ.l[k]? = some (.var vid)) r.2 [2, 3, 4, 1, 5]) := by
  unfold lstmLoss
  refine wp_var (vid := 2) rfl hW.wx fun σ1 wx e1 l1 h1 => ?_
  refine wp_var (vid := 3) rfl hW.wh fun σ2 wh e2 l2 h2 => ?_
  refine wp_var (vid := 4) rfl hW.b fun σ3 b e3 l3 h3 => ?_
  refine wp_var (vid := 1) rfl hW.table fun σ4 table e4 l4 h4 => ?_
  refine wp_var (vid := 5) rfl hW.pred fun σ5 pred e5 l5 h5 => ?_
  refine wp_bind (wp_emit (by simp [Stmt.args]) (v := s) ⟨hf, ?_⟩ (.inl rfl) trivial ?_ fun σ6 e6 l6 h6 => ?_)
  · rw [hS.shape]
    refine ⟨rfl, fun k d u h h' => ?_⟩
    match k with
    | 0 => exact .inl (Option.some.inj h).symm
    | 1 => right; rw [← Option.some.inj h, ← Option.some.inj h']; push_cast; rfl
    | k + 2 => cases h
  · intro name d hd
    cases hd
    intro k hk
    simp at hk
    rcases hk with rfl | rfl
    · exact .inl rfl
    · right; omega
  · have hs : σ6.Still vids σ5.l.length := .call l6 (by simp) (by simp [Stmt.args])
    have E5 := e6
    have E4 := e5.trans E5
    have E3 := e4.trans E4
    have E2 := e3.trans E3
    have E1 := e2.trans E2
    have hR : LstmReady W vids n dim vocab words word σ6 wx wh b table pred σ5.l.length :=
      ⟨⟨h1.mono E1, h2.mono E2, h3.mono E3⟩, h4.mono E4, h5.mono E5, new_has h6 ⟨hS.shape, fun i hi j hj => (hS.word_is i hi j (by omega)).1⟩, hs⟩
    refine wp_bind (wp_mono (words_wp hS hR words (le_refl _)) ?_)
    rintro τ ⟨losses, last⟩ e7 ⟨h7, h8, _⟩
    refine wp_bind (wp_mono (addN_wp hS.words_pos h7 h8) ?_)
    intro υ r e8 h9
    have e := e7.trans e8
    exact wp_pure ⟨h9, .cons (prefix_get (E1.trans e).1 l1) (.cons (prefix_get (E2.trans e).1 l2) (.cons (prefix_get (E3.trans e).1 l3)
      (.cons (prefix_get (E4.trans e).1 l4) (.cons (prefix_get (E5.trans e).1 l5) .nil))))⟩

theorem total_column {a : Arr ℝ} {n : Nat} (h : a.shape = [n, 1]) : total a = ∑ r ∈ Finset.range n, a.get [r, 0] := by
  rw [total, h, sum_idxs_two]
  exact Finset.sum_congr rfl fun r _ => by simp

/-- The values of the calls. -/
theorem lstm_values {bot : ℝ} {lay : Arr ℝ → List Int} {W : LstmWeights} {unused : Arr ℝ} {n dim vocab words : Nat} {word : Nat → Nat → Nat} {s : Arr ℝ}
    (hS : Sentences lay n dim vocab words s word) (hW : W.Shapes dim vocab) (hf : FedAs fs "sents" s) (vids : List Nat) :
    ∃ vals, St.Good fs (W.env unused) vids ⟨lstmCalls bot lay dim words, vals⟩ ∧
      St.Has ⟨lstmCalls bot lay dim words, vals⟩ (lstmResult bot lay dim words).1 (IsMat n 1 fun i _ => W.loss dim vocab words word i) ∧
      List.Forall₂ (fun k vid => (lstmCalls bot lay dim words)[k]? = some (.var vid)) (lstmResult bot lay dim words).2 [2, 3, 4, 1, 5] := by
  obtain ⟨vals, h1, _, h2, h3⟩ := loss_wp (vids := vids) (σ := ⟨[], []⟩) (bot := bot) (unused := unused) hS hW hf
    ⟨rfl, fun k c hk => (by cases hk), fun name d hm => (by cases hm), fun k c hk => (by cases hk), fun c hc => (by cases hc)⟩
  exact ⟨vals, h1, h2, h3⟩

/-! ## The number of calls -/

theorem emit_len (s : Stmt) (l : List Stmt) : (emit s l).2.length = l.length + 1 := by simp [emit]

theorem bind_len {α β : Type} {m : StateM (List Stmt) α} {f : α → StateM (List Stmt) β} {p q : Nat} (h : ∀ l, (m l).2.length ≤ l.length + p) (h' : ∀ a l, (f a l).2.length ≤ l.length + q) (l : List Stmt) :
    ((m >>= f) l).2.length ≤ l.length + (p + q) := by
  have e : (m >>= f) l = f (m l).1 (m l).2 := rfl
  rw [e]
  have := h l
  have := h' (m l).1 (m l).2
  omega

theorem emit_le (s : Stmt) (l : List Stmt) : (emit s l).2.length ≤ l.length + 1 := (emit_len s l).le

theorem pure_le {α : Type} (a : α) (l : List Stmt) : ((pure a : StateM (List Stmt) α) l).2.length ≤ l.length + 0 := le_refl _

theorem step_len (dim wx wh b x : Nat) (last : Option (Nat × Nat)) (l : List Stmt) : (lstmStep dim wx wh b x last l).2.length ≤ l.length + (if last = none then 21 else 17) := by
  have hb : ∀ lo lc l, (lstmBody dim wx wh b x lo lc l).2.length = l.length + 17 := fun lo lc l => by
    simp only [lstmBody, emit, bind, StateT.bind, pure, StateT.pure, List.length_append, List.length_singleton]
  match last with
  | some (lo, lc) =>
    have e : lstmStep dim wx wh b x (some (lo, lc)) = lstmBody dim wx wh b x lo lc := by
      simp only [lstmStep, lstmBody, pure_bind]
    rw [e, hb]; simp
  | none =>
    have e : lstmStep dim wx wh b x none = (emit (.shapeOf x) >>= fun s => emit (.zeros s) >>= fun lo => emit (.shapeOf x) >>= fun s => emit (.zeros s) >>= fun lc => lstmBody dim wx wh b x lo lc) := by
      simp only [lstmStep, lstmBody]
    rw [e]
    exact bind_len (emit_le _) (fun _ => bind_len (emit_le _) fun lo => bind_len (emit_le _) fun _ => bind_len (emit_le _) fun lc l => (hb lo lc l).le) l

theorem word_len (bot : ℝ) (lay : Arr ℝ → List Int) (dim wx wh b table pred sentences i : Nat) (last : Option (Nat × Nat)) (l : List Stmt) :
    (lstmWord bot lay dim wx wh b table pred sentences i last l).2.length ≤ l.length + (if last = none then 28 else 24) := by
  have := bind_len (emit_le (.slice sentences [0, i] [-1, i + 1])) (fun cur => bind_len (emit_le (.slice sentences [0, i + 1] [-1, i + 2])) (fun next =>
    bind_len (emit_le (.gather false cur table 0)) (fun e => bind_len (emit_le (.const (vec [1]))) (fun axes => bind_len (emit_le (.squeeze e axes)) (fun x =>
    bind_len (step_len dim wx wh b x last) (fun hc => bind_len (emit_le (.matmul hc.1 pred)) (fun prediction => bind_len (emit_le (.sparseCE bot lay prediction next)) (fun loss =>
      pure_le (loss, hc.1, hc.2))))))))) l
  refine le_trans this ?_
  split <;> omega

theorem words_len (bot : ℝ) (lay : Arr ℝ → List Int) (dim wx wh b table pred sentences n : Nat) (l : List Stmt) :
    (lstmWords bot lay dim wx wh b table pred sentences n l).2.length ≤ l.length + (24 * n + (if (lstmWords bot lay dim wx wh b table pred sentences n l).1.2 = none then 0 else 4)) := by
  induction n with
  | zero => exact Nat.le_add_right _ _
  | succ n ih =>
    show (lstmWord bot lay dim wx wh b table pred sentences n (lstmWords bot lay dim wx wh b table pred sentences n l).1.2 (lstmWords bot lay dim wx wh b table pred sentences n l).2).2.length ≤
      l.length + (24 * (n + 1) + 4)
    have := word_len bot lay dim wx wh b table pred sentences n (lstmWords bot lay dim wx wh b table pred sentences n l).1.2 (lstmWords bot lay dim wx wh b table pred sentences n l).2
    split at this <;> simp_all <;> omega

theorem lstm_len (bot : ℝ) (lay : Arr ℝ → List Int) (dim words : Nat) : (lstmCalls bot lay dim words).length ≤ 24 * words + 11 := by
  have hN : ∀ losses l, (emitAddN losses l).2.length ≤ l.length + 1 := by
    intro losses l
    match losses with
    | [] => exact Nat.le_succ _
    | [x] => exact Nat.le_succ _
    | x :: y :: zs => exact emit_le _ l
  have hw : ∀ wx wh b table pred sentences l, (lstmWords bot lay dim wx wh b table pred sentences words l).2.length ≤ l.length + (24 * words + 4) := by
    intro wx wh b table pred sentences l
    refine le_trans (words_len bot lay dim wx wh b table pred sentences words l) ?_
    split <;> omega
  have := bind_len (emit_le (.var 2)) (fun wx => bind_len (emit_le (.var 3)) (fun wh => bind_len (emit_le (.var 4)) (fun b => bind_len (emit_le (.var 1)) (fun table => bind_len (emit_le (.var 5)) (fun pred =>
    bind_len (emit_le (.placeholder "sents" [-1, words + 1])) (fun sentences => bind_len (hw wx wh b table pred sentences) (fun ls => bind_len (hN ls.1) (fun loss =>
      pure_le (loss, [wx, wh, b, table, pred]))))))))) []
  refine le_trans this ?_
  simp
  omega

end Verif.Prog
