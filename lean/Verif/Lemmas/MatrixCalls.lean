import Verif.Lemmas.CallsWp
import Verif.Lemmas.CrossEntropy
import Verif.Lemmas.Smooth
import Verif.Lemmas.ProgramRearrange

/-! # Calls on matrices -/

namespace Verif.Prog
open Verif Verif.Nd Verif.Spec

/-- A matrix with `m` rows, `n` columns and the entries `f`. -/
def IsMat (m n : Nat) (f : Nat → Nat → ℝ) (a : Arr ℝ) : Prop := a.shape = [m, n] ∧ ∀ i < m, ∀ j < n, a.get [i, j] = f i j

variable {fs : List (String × Arr ℝ)} {env : List (Arr ℝ)} {vids : List Nat} {α : Type} {σ : St} {Q : St → α → Prop}

theorem new_has {τ : St} {k : Nat} {v : Arr ℝ} {P : Arr ℝ → Prop} (h : τ.vals[k]? = some v) (hP : P v) : τ.Has k P := ⟨v, h, hP⟩

/-- The form of all rules: one call. -/
theorem wp_call {s : Stmt} {v : Arr ℝ} {rest : Nat → StateM (List Stmt) α} (ha : ∀ a ∈ s.args, a < σ.vals.length) (hr : Returns fs env σ.val v s)
    (hok : StmtOk (σ.Still vids) (FlatIn σ.l σ.val) σ.val s) (hgg : GradGivenFor (σ.Still vids) s) (hd : ∀ name d, s ≠ .placeholder name d)
    (hQ : ∀ (τ : St) (k : Nat), σ.Le τ → τ.l[k]? = some s → τ.vals[k]? = some v → Wp fs env vids (rest k) τ Q) : Wp fs env vids (emit s >>= rest) σ Q :=
  wp_bind (wp_emit ha hr hok hgg (fun name d h => absurd h (hd name d)) fun τ h1 h2 h3 => hQ τ _ h1 h2 h3)

theorem wp_matmul {a b m k n : Nat} {f g : Nat → Nat → ℝ} {rest : Nat → StateM (List Stmt) α} (ha : σ.Has a (IsMat m k f)) (hb : σ.Has b (IsMat k n g))
    (hQ : ∀ (τ : St) (c : Nat), σ.Le τ → τ.Has c (IsMat m n fun i j => ∑ q ∈ Finset.range k, f i q * g q j) → Wp fs env vids (rest c) τ Q) :
    Wp fs env vids (emit (.matmul a b) >>= rest) σ Q := by
  obtain ⟨y, h1, h2, h3⟩ := matMul_value false false (σ.val a) (σ.val b) m k n ha.val_eq.1 hb.val_eq.1
  refine wp_call (by simp [Stmt.args, ha.lt, hb.lt]) (v := y) h1 trivial trivial (by simp) fun τ c hle _ hc => hQ τ c hle (new_has hc ⟨h2, fun i hi j hj => ?_⟩)
  have : y.get [i, j] = _ := h3 [] .nil i hi j hj
  rw [this]
  refine Finset.sum_congr rfl fun q hq => ?_
  have hq := Finset.mem_range.1 hq
  rw [show entry (σ.val a) false [] i q = _ from ha.val_eq.2 i hi q hq, show entry (σ.val b) false [] q j = _ from hb.val_eq.2 q hq j hj]

theorem inferable_mat {m n m' : Nat} (hm : 0 < m) (hn : 0 < n) (hm' : 0 < m') : Inferable [m, n] [m', n] :=
  ⟨.inr (.inr rfl), by simp [hm, hn], by simp [hm', hn]⟩

theorem row_broadcasts (m n : Nat) : BroadcastsTo [1, n] [m, n] := by
  refine ⟨le_refl _, fun k h h' => ?_⟩
  match k, h with
  | 0, _ => exact .inr rfl
  | 1, _ => exact .inl rfl

theorem bin_mat {f : ℝ → ℝ → ℝ} (hf : ∀ u v, f u v = f v u) {x y : Arr ℝ} {m n : Nat} {p q : Nat → Nat → ℝ} (hx : IsMat m n p x) (hy : IsMat m n q y) :
    ∃ z, binForward f x y = .ok z ∧ IsMat m n (fun i j => f (p i j) (q i j)) z := by
  have hcs : CommonShape x.shape y.shape [m, n] := by rw [hx.1, hy.1]; exact commonShape_left (broadcastsTo_self _)
  obtain ⟨z, h1, h2, h3⟩ := binForward_spec hf hcs (by rw [hx.1]; intro h; cases h) (by rw [hy.1]; intro h; cases h)
  refine ⟨z, h1, h2, fun i hi j hj => ?_⟩
  have hI : InB [i, j] [m, n] := .cons hi (.cons hj .nil)
  rw [h3 _ hI, hx.1, hy.1, bIdx_self hI, hx.2 i hi j hj, hy.2 i hi j hj]

theorem bin_row {f : ℝ → ℝ → ℝ} (hf : ∀ u v, f u v = f v u) {x y : Arr ℝ} {m n : Nat} {p q : Nat → Nat → ℝ} (hx : IsMat m n p x) (hy : IsMat 1 n q y) :
    ∃ z, binForward f x y = .ok z ∧ IsMat m n (fun i j => f (p i j) (q 0 j)) z := by
  have hcs : CommonShape x.shape y.shape [m, n] := by rw [hx.1, hy.1]; exact commonShape_left (row_broadcasts m n)
  obtain ⟨z, h1, h2, h3⟩ := binForward_spec hf hcs (by rw [hx.1]; intro h; cases h) (by rw [hy.1]; intro h; cases h)
  refine ⟨z, h1, h2, fun i hi j hj => ?_⟩
  have hI : InB [i, j] [m, n] := .cons hi (.cons hj .nil)
  have hb0 : bIdx [1, n] [i, j] = [0, j] := by
    by_cases hn : n = 1
    · subst hn
      have : j = 0 := by omega
      subst this
      rfl
    · simp [bIdx, hn]
  rw [h3 _ hI, hx.1, hy.1, bIdx_self hI, hb0, hx.2 i hi j hj, hy.2 0 Nat.zero_lt_one j hj]

theorem wp_add {a b m n : Nat} {f g : Nat → Nat → ℝ} {rest : Nat → StateM (List Stmt) α} (ha : σ.Has a (IsMat m n f)) (hb : σ.Has b (IsMat m n g)) (hm : 0 < m) (hn : 0 < n)
    (hQ : ∀ (τ : St) (c : Nat), σ.Le τ → τ.Has c (IsMat m n fun i j => f i j + g i j) → Wp fs env vids (rest c) τ Q) :
    Wp fs env vids (emit (.add a b) >>= rest) σ Q := by
  obtain ⟨z, h1, h2⟩ := bin_mat (f := fun u v => u + v) add_comm ha.val_eq hb.val_eq
  exact wp_call (by simp [Stmt.args, ha.lt, hb.lt]) (v := z) h1 (by show Inferable _ _; rw [ha.val_eq.1, hb.val_eq.1]; exact inferable_mat hm hn hm) trivial (by simp)
    fun τ c hle _ hc => hQ τ c hle (new_has hc h2)

theorem wp_addRow {a b m n : Nat} {f g : Nat → Nat → ℝ} {rest : Nat → StateM (List Stmt) α} (ha : σ.Has a (IsMat m n f)) (hb : σ.Has b (IsMat 1 n g)) (hm : 0 < m) (hn : 0 < n)
    (hQ : ∀ (τ : St) (c : Nat), σ.Le τ → τ.Has c (IsMat m n fun i j => f i j + g 0 j) → Wp fs env vids (rest c) τ Q) :
    Wp fs env vids (emit (.add a b) >>= rest) σ Q := by
  obtain ⟨z, h1, h2⟩ := bin_row (f := fun u v => u + v) add_comm ha.val_eq hb.val_eq
  exact wp_call (by simp [Stmt.args, ha.lt, hb.lt]) (v := z) h1 (by show Inferable _ _; rw [ha.val_eq.1, hb.val_eq.1]; exact inferable_mat hm hn Nat.one_pos) trivial (by simp)
    fun τ c hle _ hc => hQ τ c hle (new_has hc h2)

theorem wp_mul {a b m n : Nat} {f g : Nat → Nat → ℝ} {rest : Nat → StateM (List Stmt) α} (ha : σ.Has a (IsMat m n f)) (hb : σ.Has b (IsMat m n g)) (hm : 0 < m) (hn : 0 < n)
    (hQ : ∀ (τ : St) (c : Nat), σ.Le τ → τ.Has c (IsMat m n fun i j => f i j * g i j) → Wp fs env vids (rest c) τ Q) :
    Wp fs env vids (emit (.mul a b) >>= rest) σ Q := by
  obtain ⟨z, h1, h2⟩ := bin_mat (f := fun u v => u * v) mul_comm ha.val_eq hb.val_eq
  exact wp_call (by simp [Stmt.args, ha.lt, hb.lt]) (v := z) h1 (by show Inferable _ _; rw [ha.val_eq.1, hb.val_eq.1]; exact inferable_mat hm hn hm) trivial (by simp)
    fun τ c hle _ hc => hQ τ c hle (new_has hc h2)

/-- `sigmoid` and `tanh`. -/
theorem wp_un {a m n : Nat} {f : Nat → Nat → ℝ} {op : EOp} (hop : op = .sigmoid ∨ op = .tanh) {rest : Nat → StateM (List Stmt) α} (ha : σ.Has a (IsMat m n f))
    (hQ : ∀ (τ : St) (c : Nat), σ.Le τ → τ.Has c (IsMat m n fun i j => op.f (f i j)) → Wp fs env vids (rest c) τ Q) :
    Wp fs env vids (emit (.un op a) >>= rest) σ Q := by
  refine wp_call (by simp [Stmt.args, ha.lt]) (v := Nd.map op.f (σ.val a)) rfl ?_ ?_ (by simp) fun τ c hle _ hc => hQ τ c hle (new_has hc ⟨ha.val_eq.1, fun i hi j hj => ?_⟩)
  · refine .inr ⟨fun i _ => ?_, ?_⟩
    · rcases hop with rfl | rfl
      · exact smooth_ok (op := .sigmoid) trivial
      · exact smooth_ok (op := .tanh) trivial
    · rcases hop with rfl | rfl <;> exact ⟨fun h => h.elim, fun h => h.elim⟩
  · rcases hop with rfl | rfl <;> trivial
  · show op.f ((σ.val a).get [i, j]) = _
    rw [ha.val_eq.2 i hi j hj]

/-- Columns of a matrix. -/
theorem wp_slice {a m n lo hi len : Nat} {s e : Int} {f : Nat → Nat → ℝ} {rest : Nat → StateM (List Stmt) α} (ha : σ.Has a (IsMat m n f)) (hlo : lo + len = hi) (hn : hi ≤ n) (hs : s = lo) (he : e = hi)
    (hQ : ∀ (τ : St) (c : Nat), σ.Le τ → τ.Has c (IsMat m len fun i j => f i (lo + j)) → (σ.Still vids a → τ.Still vids c) → Wp fs env vids (rest c) τ Q) :
    Wp fs env vids (emit (.slice a [0, s] [-1, e]) >>= rest) σ Q := by
  subst hs he
  have hb : AllBounds (σ.val a).shape [0, (lo : Int)] [-1, (hi : Int)] [0, lo] [m, hi] := by
    rw [ha.val_eq.1]
    exact ⟨⟨.inl rfl, .inr ⟨by decide, by omega⟩, Nat.zero_le _, le_refl _⟩, ⟨.inl rfl, .inl ⟨by omega, rfl⟩, by omega, hn⟩, trivial⟩
  obtain ⟨y, h1, h2, h3⟩ := sliceArr_region (x := σ.val a) (sliceRegion_ok hb).1
  refine wp_call (by simp [Stmt.args, ha.lt]) (v := y) h1 (.inr ⟨_, _, hb⟩) trivial (by simp) fun τ c hle hl hc =>
    hQ τ c hle (new_has hc ⟨?_, fun i hi' j hj => ?_⟩) fun hst => .call hl (by simp) (by intro b hb; simp only [Stmt.args, List.mem_singleton] at hb; subst hb; exact hst.mono hle)
  · rw [h2]
    show [m - 0, hi - lo] = _
    simp [← hlo]
  · show y.get [i, j] = f i (lo + j)
    rw [h3, ← ha.val_eq.2 i hi' (lo + j) (by omega)]
    simp

/-- `zeros(&shape(x))`. -/
theorem wp_zeros {a m n : Nat} {f : Nat → Nat → ℝ} {rest : Nat → StateM (List Stmt) α} (ha : σ.Has a (IsMat m n f))
    (hQ : ∀ (τ : St) (c : Nat), σ.Le τ → τ.Has c (IsMat m n fun _ _ => 0) → Wp fs env vids (rest c) τ Q) :
    Wp fs env vids (emit (.shapeOf a) >>= fun s => emit (.zeros s) >>= rest) σ Q := by
  refine wp_call (by simp [Stmt.args, ha.lt]) (v := encShape (σ.val a).shape) rfl trivial trivial (by simp) fun τ s hle hl hs => ?_
  have hst : τ.Still vids s := .shapeOf hl
  have hss : τ.Has s (fun v => v = encShape [m, n]) := new_has hs (by rw [ha.val_eq.1])
  refine wp_call (by simp [Stmt.args, hss.lt]) (v := ofFn [m, n] fun _ => 0) ⟨[m, n], by rw [hss.val_eq, readShape_enc], rfl⟩ hst hst (by simp) fun υ c hle' _ hc => ?_
  exact hQ υ c (hle.trans hle') (new_has hc ⟨rfl, fun i _ j _ => rfl⟩)

/-- Rows of a matrix, given by a column of numbers: `squeeze(gather(table, indices, 0), &[1])`. -/
theorem wp_embed {idx table m v d : Nat} {f g : Nat → Nat → ℝ} {sel : Nat → Nat} {rest : Nat → StateM (List Stmt) α} (hi : σ.Has idx (IsMat m 1 f)) (hst : σ.Still vids idx) (ht : σ.Has table (IsMat v d g))
    (hm : 0 < m) (hsel : ∀ i < m, f i 0 = sel i ∧ sel i < v)
    (hQ : ∀ (τ : St) (c : Nat), σ.Le τ → τ.Has c (IsMat m d fun i j => g (sel i) j) → Wp fs env vids (rest c) τ Q) :
    Wp fs env vids (emit (.gather false idx table 0) >>= fun e => emit (.const (vec [1])) >>= fun axes => emit (.squeeze e axes) >>= rest) σ Q := by
  have hl : ∀ i, InB i (σ.val idx).shape → ∃ l : Nat, (σ.val idx).get i = l ∧ l < v := by
    intro i hI
    rw [hi.val_eq.1] at hI
    match i, hI with
    | [r, c], .cons hr (.cons hc .nil) =>
      have : c = 0 := by omega
      subst this
      exact ⟨sel r, by rw [hi.val_eq.2 r hr 0 Nat.one_pos, (hsel r hr).1], (hsel r hr).2⟩
  obtain ⟨h1, h2, h3⟩ := gather_run (norm := false) (axis := 0) (k := 0) (n := v) (m := m) (a := σ.val idx) (z := σ.val table) rfl (by rw [ht.val_eq.1]; rfl) hm (.inr hi.val_eq.1) hl
  obtain ⟨y, h4, h5, h6⟩ := gather_norm_spec (σ.val table) (truncs (σ.val idx)) 0 0 v (selAt (σ.val idx)) ⟨by rw [ht.val_eq.1]; exact Nat.zero_lt_succ _, .inl rfl⟩ (by rw [ht.val_eq.1]; rfl) h3 (fun i hi => (h2 i hi).1)
  have hys : y.shape = [m, 1, d] := by
    rw [h5, ht.val_eq.1, show (truncs (σ.val idx)).shape = [m, 1] from hi.val_eq.1]; rfl
  have hyv : ∀ i < m, ∀ j < d, y.get [i, 0, j] = g (sel i) j := by
    intro i hi' j hj
    have hI : InB [i, 0] (σ.val idx).shape := by rw [hi.val_eq.1]; exact .cons hi' (.cons Nat.one_pos .nil)
    have := h6 [] [i, 0] [j] (by exact .nil) hI (by rw [ht.val_eq.1]; exact .cons hj .nil)
    have e : selAt (σ.val idx) [i, 0] = sel i := by
      obtain ⟨h, _⟩ := h2 _ hI
      have e1 : (truncs (σ.val idx)).get [i, 0] = sel i := by
        show trunc ((σ.val idx).get [i, 0]) = _
        exact trunc_nat (by rw [hi.val_eq.2 i hi' 0 Nat.one_pos, (hsel i hi').1])
      rw [e1] at h
      have := (hsel i hi').2
      obtain ⟨h, h'⟩ := h
      rcases h' with h' | h' <;> omega
    rw [e] at this
    rw [← ht.val_eq.2 (sel i) (hsel i hi').2 j hj]
    exact this
  refine wp_call (by simp [Stmt.args, hi.lt, ht.lt]) (v := y) (h1.trans h4) ⟨hst, .inr ⟨0, v, m, rfl, by rw [ht.val_eq.1]; rfl, hm, .inr hi.val_eq.1, hl⟩⟩ hst (by simp) fun τ e hle _ he => ?_
  refine wp_call (by simp [Stmt.args]) (v := vec [1]) rfl trivial trivial (by simp) fun υ axes hle' hl' hax => ?_
  have he' : υ.Has e (fun z => z = y) := (new_has he rfl : τ.Has e (fun z => z = y)).mono hle'
  have hax' : υ.Has axes (fun z => z = vec [1]) := new_has hax rfl
  have hri : readInts (vec [1]) = [1] := by
    have : trunc (1 : ℝ) = 1 := by simpa using trunc_nat (r := 1) (l := 1) (by norm_num)
    simp [readInts, toList_vec, this]
  have hone : ∀ k ∈ [1], y.shape[k]? = some 1 := by simp [hys]
  obtain ⟨z, h7, h8, h9⟩ := squeeze_spec (x := y) (ks := [1]) (by decide) hone
  have hstill : υ.Still vids axes := .call hl' (by simp) (by simp [Stmt.args])
  refine wp_call (by simp [Stmt.args, he'.lt, hax'.lt]) (v := z) ?_ ⟨hstill, .inr ⟨[1], ?_, by decide, ?_⟩⟩ hstill (by simp) fun ω c hle'' _ hc => ?_
  · show Nd.squeeze (υ.val e) (readInts (υ.val axes)) = _
    rw [he'.val_eq, hax'.val_eq, hri]
    exact h7
  · rw [hax'.val_eq, hri]; rfl
  · rw [he'.val_eq]; exact hone
  · refine hQ ω c ((hle.trans hle').trans hle'') (new_has hc ⟨by rw [h8, hys]; rfl, fun i hi' j hj => ?_⟩)
    show z.get [i, j] = g (sel i) j
    rw [← hyv i hi' j hj]
    exact h9 [i, 0, j] (by rw [hys]; exact .cons hi' (.cons Nat.one_pos (.cons hj .nil)))

/-- `sparse_softmax_cross_entropy` with a column of labels. -/
theorem wp_sparse {bot : ℝ} {lay : Arr ℝ → List Int} {a t m v : Nat} {f g : Nat → Nat → ℝ} {sel : Nat → Nat} {rest : Nat → StateM (List Stmt) α} (ha : σ.Has a (IsMat m v f))
    (ht : σ.Has t (IsMat m 1 g)) (hst : σ.Still vids t) (hsel : ∀ i < m, g i 0 = sel i ∧ sel i < v) (hlay : ∀ x : Arr ℝ, x.shape = [m, v] → Contig [m] (lay x))
    (hQ : ∀ (τ : St) (c : Nat), σ.Le τ → τ.Has c (IsMat m 1 fun i _ => -Real.log (Real.exp (f i (sel i)) / ∑ k ∈ Finset.range v, Real.exp (f i k))) → Wp fs env vids (rest c) τ Q) :
    Wp fs env vids (emit (.sparseCE bot lay a t) >>= rest) σ Q := by
  have hlab : ∀ i < m, (σ.val t).get (if (σ.val t).shape = [m] then [i] else [i, 0]) = sel i ∧ sel i < v := by
    intro i hi
    rw [if_neg (by rw [ht.val_eq.1]; simp), ht.val_eq.2 i hi 0 Nat.one_pos]
    exact hsel i hi
  obtain ⟨y, logx, h1, _, h2, h3⟩ := sparseCE_spec bot (lay (σ.val a)) (σ.val a) (σ.val t) sel ha.val_eq.1 (hlay _ ha.val_eq.1) (.inr ht.val_eq.1) hlab
  refine wp_call (by simp [Stmt.args, ha.lt, ht.lt]) (v := y) ⟨logx, h1⟩ ⟨hst, .inr ⟨m, v, ha.val_eq.1, by rw [ha.val_eq.1]; exact hlay, .inr ht.val_eq.1, fun i hi => ⟨sel i, hlab i hi⟩⟩⟩ trivial (by simp)
    fun τ c hle _ hc => hQ τ c hle (new_has hc ⟨h2, fun i hi j hj => ?_⟩)
  have : j = 0 := by omega
  subst this
  have hv := (hsel i hi).2
  rw [h3 i hi, ha.val_eq.2 i hi _ hv]
  have e : ∑ k ∈ Finset.range v, Real.exp ((σ.val a).get [i, k]) = ∑ k ∈ Finset.range v, Real.exp (f i k) :=
    Finset.sum_congr rfl fun k hk => by rw [ha.val_eq.2 i hi k (Finset.mem_range.1 hk)]
  show _ = -Real.log (Real.exp (f i (sel i)) / ∑ k ∈ Finset.range v, Real.exp (f i k))
  rw [e, Real.log_div (Real.exp_pos _).ne' (Finset.sum_pos (fun k _ => Real.exp_pos _) ⟨_, Finset.mem_range.2 hv⟩).ne', Real.log_exp]

end Verif.Prog
