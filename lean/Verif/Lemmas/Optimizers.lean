import Mathlib.Tactic.Ring
import Mathlib.Tactic.FieldSimp
import Verif.Lemmas.Broadcast
import Verif.Lemmas.Updates
import Verif.Model.Optimizers

/-! The array computations of the optimizers, and sequences of them. -/

namespace Verif.Opt
open Verif Verif.Nd Verif.Spec Verif.Eval Verif.Graph
variable {R : Type}

theorem zipMut_ok {f : R → R → R} {a b r : Arr R} (h : zipMut f a b = .ok r) :
    BroadcastsTo b.shape a.shape ∧ r.shape = a.shape ∧ ∀ i, r.get i = f (a.get i) (b.get (bIdx b.shape i)) := by
  unfold zipMut broadcast at h
  split at h
  · rename_i hb
    simp only [unwrap, bind, Except.bind] at h
    cases h
    exact ⟨broadcastsTo_iff.2 (bcastOk_iff.1 hb), rfl, fun i => rfl⟩
  · simp [unwrap, bind, Except.bind] at h

theorem zipMut_some (f : R → R → R) {a b : Arr R} (h : BroadcastsTo b.shape a.shape) : ∃ r, zipMut f a b = .ok r := by
  have hok : bcastOk b.shape.reverse a.shape.reverse = true := bcastOk_iff.2 (broadcastsTo_iff.1 h)
  simp [zipMut, broadcast, hok, unwrap, bind, Except.bind]

theorem zip3_ok {f : R → R → R → R} {a b c r : Arr R} (h : zip3 f a b c = .ok r) :
    b.shape = a.shape ∧ c.shape = a.shape ∧ r.shape = a.shape ∧ ∀ i, r.get i = f (a.get i) (b.get i) (c.get i) := by
  unfold zip3 at h
  split at h
  · rename_i hb; cases h; exact ⟨hb.1, hb.2, rfl, fun i => rfl⟩
  · cases h

/-- The transitions. -/
def sgdT [Field R] (alpha : R) (a : List (Arr R)) (g : Arr R) (b : List (Arr R)) : Prop :=
  ∃ p p', a = [p] ∧ b = [p'] ∧ sgdStep alpha p g = .ok p'

def momentumT [Field R] (lr mu : R) (a : List (Arr R)) (g : Arr R) (b : List (Arr R)) : Prop :=
  ∃ p v p' v', a = [p, v] ∧ b = [p', v'] ∧ momentumStep lr mu p g v = .ok (p', v')

def adagradT [Field R] (sqrt : R → R) (lr : R) (a : List (Arr R)) (g : Arr R) (b : List (Arr R)) : Prop :=
  ∃ p v p' v', a = [p, v] ∧ b = [p', v'] ∧ adagradStep sqrt lr p g v = .ok (p', v')

def adamT [Field R] (sqrt : R → R) (powf : R → R → R) (c : AdamCfg R) (a : List (Arr R)) (g : Arr R) (b : List (Arr R)) : Prop :=
  ∃ p m v t p' m' v' t', a = [p, m, v, t] ∧ b = [p', m', v', t'] ∧ adamStep sqrt powf c p g m v t = .ok (p', m', v', t')

theorem inputMut_ok {xs : List (OpInput (Arr R))} {i : Nat} {a : Arr R} (h : inputMut xs i = .ok a) :
    xs[i]? = some ⟨.rdWr, a⟩ := by
  unfold inputMut at h
  split at h
  · rename_i x hx
    split at h
    · rename_i hk
      cases h
      rw [hx, ← hk]
    · cases h
  · cases h

theorem input_ok {xs : List (OpInput (Arr R))} {i : Nat} {a : Arr R} (h : input xs i = .ok a) :
    ∃ k, xs[i]? = some ⟨k, a⟩ ∧ k ≠ .rdWr := by
  unfold input at h
  split at h
  · rename_i x hx
    split at h
    · cases h
    · rename_i hk; cases h; exact ⟨x.kind, hx, hk⟩
  · cases h

theorem mutOutcome_done {E W : Type} [Zero R] {r : Res (List (Nat × Arr R))} {w w' : W} {ws : List (Nat × Arr R)} {ys : List (Arr R)}
    {st : Except E Unit} (h : mutOutcome r w = .done w' ws ys st) : r = .ok ws ∧ w' = w ∧ ys = [ofFn [] (fun _ => 0)] ∧ st = .ok () := by
  unfold mutOutcome at h
  split at h
  · cases h; exact ⟨rfl, rfl, rfl, rfl⟩
  · cases h

variable {Op E W : Type} [Field R]

theorem sgd_updatesBy {S : Sem Op (Arr R) E W} {o : Op} {alpha : R}
    (hS : ∀ w xs, S.compute o w xs = mutOutcome (sgdWrites alpha xs) w) : UpdatesBy S o 0 (sgdT alpha) := by
  intro w xs w' ws ys st hl hc
  rw [hS] at hc
  obtain ⟨h, -⟩ := mutOutcome_done hc
  simp only [sgdWrites, bind_ok] at h
  obtain ⟨p, hp, g, hg, p', hs, h⟩ := h
  cases h
  match xs, hl with
  | [x0, x1], _ =>
    have h0 := inputMut_ok hp
    obtain ⟨k, h1, -⟩ := input_ok hg
    simp at h0 h1
    subst h0 h1
    refine ⟨_, _, [], p', [], rfl, ⟨p, p', rfl, rfl, hs⟩, rfl, ?_⟩
    simp

theorem momentum_updatesBy {S : Sem Op (Arr R) E W} {o : Op} {lr mu : R}
    (hS : ∀ w xs, S.compute o w xs = mutOutcome (momentumWrites lr mu xs) w) : UpdatesBy S o 1 (momentumT lr mu) := by
  intro w xs w' ws ys st hl hc
  rw [hS] at hc
  obtain ⟨h, -⟩ := mutOutcome_done hc
  simp only [momentumWrites, bind_ok] at h
  obtain ⟨p, hp, g, hg, v, hv, ⟨p', v'⟩, hs, h⟩ := h
  cases h
  match xs, hl with
  | [x0, x1, x2], _ =>
    have h0 := inputMut_ok hp
    have h2 := inputMut_ok hv
    obtain ⟨k, h1, -⟩ := input_ok hg
    simp at h0 h1 h2
    subst h0 h1 h2
    refine ⟨_, _, _, p', [v'], rfl, ⟨p, v, p', v', rfl, rfl, hs⟩, rfl, ?_⟩
    intro k x
    simp only [List.mem_cons, Prod.mk.injEq, List.not_mem_nil, or_false]
    constructor
    · rintro (⟨rfl, rfl⟩ | h)
      · exact .inr ⟨0, rfl, rfl⟩
      · exact .inl h
    · rintro (h | ⟨j, rfl, hj⟩)
      · exact .inr h
      · cases j with
        | zero => simp at hj; exact .inl ⟨rfl, hj.symm⟩
        | succ j => simp at hj

theorem adagrad_updatesBy {S : Sem Op (Arr R) E W} {o : Op} {sqrt : R → R} {lr : R}
    (hS : ∀ w xs, S.compute o w xs = mutOutcome (adagradWrites sqrt lr xs) w) : UpdatesBy S o 1 (adagradT sqrt lr) := by
  intro w xs w' ws ys st hl hc
  rw [hS] at hc
  obtain ⟨h, -⟩ := mutOutcome_done hc
  simp only [adagradWrites, bind_ok] at h
  obtain ⟨p, hp, g, hg, v, hv, ⟨p', v'⟩, hs, h⟩ := h
  cases h
  match xs, hl with
  | [x0, x1, x2], _ =>
    have h0 := inputMut_ok hp
    have h2 := inputMut_ok hv
    obtain ⟨k, h1, -⟩ := input_ok hg
    simp at h0 h1 h2
    subst h0 h1 h2
    refine ⟨_, _, _, p', [v'], rfl, ⟨p, v, p', v', rfl, rfl, hs⟩, rfl, ?_⟩
    intro k x
    simp only [List.mem_cons, Prod.mk.injEq, List.not_mem_nil, or_false]
    constructor
    · rintro (⟨rfl, rfl⟩ | h)
      · exact .inr ⟨0, rfl, rfl⟩
      · exact .inl h
    · rintro (h | ⟨j, rfl, hj⟩)
      · exact .inr h
      · cases j with
        | zero => simp at hj; exact .inl ⟨rfl, hj.symm⟩
        | succ j => simp at hj

theorem adam_updatesBy {S : Sem Op (Arr R) E W} {o : Op} {sqrt : R → R} {powf : R → R → R} {c : AdamCfg R}
    (hS : ∀ w xs, S.compute o w xs = mutOutcome (adamWrites sqrt powf c xs) w) : UpdatesBy S o 3 (adamT sqrt powf c) := by
  intro w xs w' ws ys st hl hc
  rw [hS] at hc
  obtain ⟨h, -⟩ := mutOutcome_done hc
  simp only [adamWrites, bind_ok] at h
  obtain ⟨t, ht, g, hg, m, hm, v, hv, p, hp, ⟨p', m', v', t'⟩, hs, h⟩ := h
  cases h
  match xs, hl with
  | [x0, x1, x2, x3, x4], _ =>
    have h0 := inputMut_ok hp
    have h2 := inputMut_ok hm
    have h3 := inputMut_ok hv
    have h4 := inputMut_ok ht
    obtain ⟨k, h1, -⟩ := input_ok hg
    simp at h0 h1 h2 h3 h4
    subst h0 h1 h2 h3 h4
    refine ⟨_, _, _, p', [m', v', t'], rfl, ⟨p, m, v, t, p', m', v', t', rfl, rfl, hs⟩, rfl, ?_⟩
    intro k x
    simp only [List.mem_cons, Prod.mk.injEq, List.not_mem_nil, or_false]
    constructor
    · rintro (⟨rfl, rfl⟩ | ⟨rfl, rfl⟩ | h | ⟨rfl, rfl⟩)
      · exact .inr ⟨0, rfl, rfl⟩
      · exact .inr ⟨1, rfl, rfl⟩
      · exact .inl h
      · exact .inr ⟨2, rfl, rfl⟩
    · rintro (h | ⟨j, rfl, hj⟩)
      · exact .inr (.inr (.inl h))
      · match j, hj with
        | 0, hj => simp at hj; exact .inl ⟨rfl, hj.symm⟩
        | 1, hj => simp at hj; exact .inr (.inl ⟨rfl, hj.symm⟩)
        | 2, hj => simp at hj; exact .inr (.inr (.inr ⟨rfl, hj.symm⟩))
        | j + 3, hj => simp at hj

/-! ### Sequences of updates -/

omit [Field R] in
theorem gradAt_prefix {gs gs' : List (Arr R)} {idx : List Nat} {g : Nat → R} (h : GradAt (gs ++ gs') idx g) : GradAt gs idx g := by
  intro k a hk
  refine h k a ?_
  rw [List.getElem?_append_left (List.getElem?_eq_some_iff.1 hk).1, hk]

omit [Field R] in
theorem gradAt_last {gs : List (Arr R)} {a : Arr R} {idx : List Nat} {g : Nat → R} (h : GradAt (gs ++ [a]) idx g) :
    g gs.length = a.get (bIdx a.shape idx) := by
  obtain ⟨o, h1, h2⟩ := h gs.length a (by simp)
  rw [h2, readsAt_unique h1]

/-- The gradients were accepted: each can be broadcast to the shape of the parameter. -/
def AllBroadcast (gs : List (Arr R)) (s : List Nat) : Prop := ∀ a ∈ gs, BroadcastsTo a.shape s

omit [Field R] in
theorem AllBroadcast.snoc {gs : List (Arr R)} {a : Arr R} {s : List Nat} (h : AllBroadcast gs s) (ha : BroadcastsTo a.shape s) :
    AllBroadcast (gs ++ [a]) s := by
  intro b hb
  rcases List.mem_append.1 hb with hb | hb
  · exact h b hb
  · simp at hb; subst hb; exact ha

theorem sgd_steps {alpha : R} {p : Arr R} {gs : List (Arr R)} {b : List (Arr R)} (h : Steps (sgdT alpha) [p] gs b) :
    ∃ p', b = [p'] ∧ p'.shape = p.shape ∧ AllBroadcast gs p.shape ∧
      ∀ idx g, InB idx p.shape → GradAt gs idx g → p'.get idx = sgdParam alpha (p.get idx) g gs.length := by
  induction gs using List.reverseRecOn generalizing b with
  | nil => cases h; exact ⟨p, rfl, rfl, by simp [AllBroadcast], fun _ _ _ _ => rfl⟩
  | append_singleton gs a ih =>
    obtain ⟨c, h1, h2⟩ := steps_append.1 h
    rw [steps_single] at h2
    obtain ⟨p1, rfl, hsh, hb, hg⟩ := ih h1
    obtain ⟨q, q', e, rfl, hs⟩ := h2
    cases e
    obtain ⟨z1, z2, z3⟩ := zipMut_ok hs
    refine ⟨q', rfl, z2.trans hsh, hb.snoc (hsh ▸ z1), fun idx g hi hga => ?_⟩
    rw [z3, hg idx g hi (gradAt_prefix hga), List.length_append]
    simp only [List.length_singleton, sgdParam]
    rw [gradAt_last hga]

theorem bIdx_self' {s idx : List Nat} (h : InB idx s) : bIdx s idx = idx :=
  (readsAt_unique ⟨h, (inB_length h).ge, fun k h1 h2 h3 _ => by
    have := inB_length h
    congr 1
    omega⟩).symm

theorem momentum_steps {lr mu : R} {p v : Arr R} (hv : v.shape = p.shape) (hv0 : ∀ idx, InB idx p.shape → v.get idx = 0)
    {gs : List (Arr R)} {b : List (Arr R)} (h : Steps (momentumT lr mu) [p, v] gs b) :
    ∃ p' v', b = [p', v'] ∧ p'.shape = p.shape ∧ v'.shape = p.shape ∧ AllBroadcast gs p.shape ∧
      ∀ idx g, InB idx p.shape → GradAt gs idx g →
        p'.get idx = momentumParam lr mu (p.get idx) g gs.length ∧ v'.get idx = momentumVel lr mu g gs.length := by
  induction gs using List.reverseRecOn generalizing b with
  | nil => cases h; exact ⟨p, v, rfl, rfl, hv, by simp [AllBroadcast], fun idx _ hi _ => ⟨rfl, hv0 idx hi⟩⟩
  | append_singleton gs a ih =>
    obtain ⟨c, h1, h2⟩ := steps_append.1 h
    rw [steps_single] at h2
    obtain ⟨p1, v1, rfl, hsh, hshv, hb, hg⟩ := ih h1
    obtain ⟨q, u, q', u', e, rfl, hs⟩ := h2
    cases e
    simp only [momentumStep, bind_ok] at hs
    obtain ⟨x, hx, y, hy, hs⟩ := hs
    cases hs
    obtain ⟨z1, z2, z3⟩ := zipMut_ok hx
    obtain ⟨y1, y2, y3⟩ := zipMut_ok hy
    refine ⟨q', u', rfl, y2.trans hsh, z2.trans hshv, hb.snoc (hshv ▸ z1), fun idx g hi hga => ?_⟩
    obtain ⟨g1, g2⟩ := hg idx g hi (gradAt_prefix hga)
    have hx : u'.get idx = momentumVel lr mu g (gs.length + 1) := by
      rw [z3, g2]
      simp only [momentumVel]
      rw [gradAt_last hga]; ring
    have hbi : bIdx u'.shape idx = idx := bIdx_self' (by rw [z2, hshv]; exact hi)
    rw [y3, hbi, g1, hx, List.length_append]
    exact ⟨rfl, rfl⟩

theorem adagrad_steps {sqrt : R → R} {lr : R} {p v : Arr R} (hv : v.shape = p.shape) (hv0 : ∀ idx, InB idx p.shape → v.get idx = 0)
    {gs : List (Arr R)} {b : List (Arr R)} (h : Steps (adagradT sqrt lr) [p, v] gs b) :
    ∃ p' v', b = [p', v'] ∧ p'.shape = p.shape ∧ v'.shape = p.shape ∧ AllBroadcast gs p.shape ∧
      ∀ idx g, InB idx p.shape → GradAt gs idx g →
        p'.get idx = adagradParam sqrt lr (p.get idx) g gs.length ∧ v'.get idx = adagradAcc g gs.length := by
  induction gs using List.reverseRecOn generalizing b with
  | nil => cases h; exact ⟨p, v, rfl, rfl, hv, by simp [AllBroadcast], fun idx _ hi _ => ⟨rfl, hv0 idx hi⟩⟩
  | append_singleton gs a ih =>
    obtain ⟨c, h1, h2⟩ := steps_append.1 h
    rw [steps_single] at h2
    obtain ⟨p1, v1, rfl, hsh, hshv, hb, hg⟩ := ih h1
    obtain ⟨q, u, q', u', e, rfl, hs⟩ := h2
    cases e
    simp only [adagradStep, bind_ok] at hs
    obtain ⟨x, hx, y, hy, hs⟩ := hs
    cases hs
    obtain ⟨z1, z2, z3⟩ := zipMut_ok hx
    obtain ⟨y1, y2, y3, y4⟩ := zip3_ok hy
    refine ⟨q', u', rfl, y3.trans hsh, z2.trans hshv, hb.snoc (hshv ▸ z1), fun idx g hi hga => ?_⟩
    obtain ⟨g1, g2⟩ := hg idx g hi (gradAt_prefix hga)
    have hgl := gradAt_last hga
    have hx : u'.get idx = adagradAcc g (gs.length + 1) := by
      rw [z3, g2]
      simp only [adagradAcc]
      rw [hgl]; ring
    have hbi : bIdx a.shape idx = idx := bIdx_self' (by rw [y1, hsh]; exact hi)
    rw [hbi] at hgl
    rw [y4, g1, hx, List.length_append, ← hgl]
    exact ⟨rfl, rfl⟩

theorem adam_steps {sqrt : R → R} {powf : R → R → R} (hpow : ∀ (b : R) (n : Nat), powf b (n : R) = b ^ n) {cfg : AdamCfg R}
    {p m v t : Arr R} (hm : m.shape = p.shape) (hm0 : ∀ idx, InB idx p.shape → m.get idx = 0)
    (hv : v.shape = p.shape) (hv0 : ∀ idx, InB idx p.shape → v.get idx = 0) (ht : t.shape = []) (ht0 : t.get [] = 1)
    {gs : List (Arr R)} {b : List (Arr R)} (h : Steps (adamT sqrt powf cfg) [p, m, v, t] gs b) :
    ∃ p' m' v' t', b = [p', m', v', t'] ∧ p'.shape = p.shape ∧ m'.shape = p.shape ∧ v'.shape = p.shape ∧ t'.shape = [] ∧
      t'.get [] = (gs.length : R) + 1 ∧ AllBroadcast gs p.shape ∧
      ∀ idx g, InB idx p.shape → GradAt gs idx g →
        p'.get idx = adamParam sqrt cfg.alpha cfg.eps cfg.b1 cfg.b2 (p.get idx) g gs.length ∧
        m'.get idx = movingAvg cfg.b1 g gs.length ∧ v'.get idx = movingAvg cfg.b2 (fun j => g j ^ 2) gs.length := by
  induction gs using List.reverseRecOn generalizing b with
  | nil =>
    cases h
    exact ⟨p, m, v, t, rfl, rfl, hm, hv, ht, by simp [ht0], by simp [AllBroadcast], fun idx _ hi _ => ⟨rfl, hm0 idx hi, hv0 idx hi⟩⟩
  | append_singleton gs a ih =>
    obtain ⟨c, h1, h2⟩ := steps_append.1 h
    rw [steps_single] at h2
    obtain ⟨p1, m1, v1, t1, rfl, hsh, hshm, hshv, hsht, htv, hb, hg⟩ := ih h1
    obtain ⟨q, u1, u2, u3, q', w1, w2, w3, e, rfl, hs⟩ := h2
    cases e
    simp only [adamStep, bind_ok] at hs
    obtain ⟨x, hx, y, hy, z, hz, r, hr, hs⟩ := hs
    cases hs
    obtain ⟨x1, x2, x3⟩ := zipMut_ok hx
    obtain ⟨y1, y2, y3⟩ := zipMut_ok hy
    obtain ⟨z1, z2, z3⟩ := zipMut_ok hz
    obtain ⟨r1, r2, r3⟩ := zipMut_ok hr
    refine ⟨q', w1, w2, _, rfl, r2.trans hsh, x2.trans hshm, y2.trans hshv, hsht, ?_, hb.snoc (hshm ▸ x1), fun idx g hi hga => ?_⟩
    · simp [hsht, htv]
    · obtain ⟨g1, g2, g3⟩ := hg idx g hi (gradAt_prefix hga)
      have hgl := gradAt_last hga
      have hm' : w1.get idx = movingAvg cfg.b1 g (gs.length + 1) := by
        rw [x3, g2]
        simp only [movingAvg]
        rw [hgl]; ring
      have hv' : w2.get idx = movingAvg cfg.b2 (fun j => g j ^ 2) (gs.length + 1) := by
        rw [y3, g3]
        simp only [movingAvg]
        rw [hgl]; ring
      have hzs : z.shape = p.shape := by rw [z2]; exact x2.trans hshm
      have hbz : bIdx z.shape idx = idx := bIdx_self' (by rw [hzs]; exact hi)
      have hbv : bIdx (Nd.map (fun x => x * (1 / (1 - powf cfg.b2 (t1.get (t1.shape.map fun _ => 0))))) w2).shape idx = idx :=
        bIdx_self' (by show InB idx w2.shape; rw [y2, hshv]; exact hi)
      have htt : t1.get (t1.shape.map fun _ => 0) = ((gs.length + 1 : Nat) : R) := by rw [hsht]; simp [htv]
      refine ⟨?_, ?_, ?_⟩
      · rw [r3, hbz, z3, hbv, g1, List.length_append]
        simp only [Nd.map, ofFn, hm', hv', htt, hpow, List.length_singleton, adamParam]
        ring_nf
      · rw [hm', List.length_append]; rfl
      · rw [hv', List.length_append]; rfl

end Verif.Opt
