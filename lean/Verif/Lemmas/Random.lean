import Mathlib.MeasureTheory.Integral.IntervalIntegral.Basic
import Verif.Model.Random
import Verif.Spec.Random
import Verif.Lemmas.Rearrange
import Verif.Lemmas.Compare
import Verif.Lemmas.EvalResults
import Verif.Lemmas.EvalErrors

/-! Random arrays and dropout. -/

namespace Verif.Rand
open Verif Verif.Nd Verif.Spec Verif.Eval

variable {σ R : Type}

theorem after_succ (sample : σ → R × σ) (n : Nat) (s : σ) : after sample (n + 1) s = (sample (after sample n s)).2 := by
  induction n generalizing s with
  | zero => rfl
  | succ n ih => exact ih _

theorem after_add (sample : σ → R × σ) (m n : Nat) (s : σ) : after sample (m + n) s = after sample n (after sample m s) := by
  induction m generalizing s with
  | zero => simp [after]
  | succ m ih => rw [Nat.succ_add]; exact ih _

theorem fill_state (sample : σ → R × σ) (n : Nat) (s : σ) : (fill sample n s).2 = after sample n s := by
  induction n generalizing s with
  | zero => rfl
  | succ n ih => exact ih _

theorem fill_get (sample : σ → R × σ) (n : Nat) (s : σ) {k : Nat} (hk : k < n) : (fill sample n s).1[k]? = some (nthSample sample s k) := by
  induction n generalizing s k with
  | zero => omega
  | succ n ih =>
    cases k with
    | zero => rfl
    | succ k => exact ih _ (by omega)

theorem gen_get [Zero R] (sample : σ → R × σ) (shape : List Nat) (s : σ) {i : List Nat} (hi : InB i shape) :
    (genRandomArray sample shape s).1.get i = nthSample sample s (flat shape i) := by
  show (fill sample (size shape) s).1.getD (flat shape i) 0 = _
  rw [List.getD_eq_getElem?_getD, fill_get sample _ s (flat_lt hi)]
  rfl

theorem after_stream (u : Nat → R) (n : Nat) : after stream n u = fun k => u (n + k) := by
  induction n generalizing u with
  | zero => funext k; simp [after]
  | succ n ih =>
    show after stream n (fun k => u (k + 1)) = _
    rw [ih]
    funext k
    congr 1
    omega

theorem nth_stream (u : Nat → R) (n : Nat) : nthSample stream u n = u n := by
  rw [nthSample, after_stream]; rfl

theorem after_coin [Zero R] [One R] [LT R] [DecidableLT R] (uniform : σ → R × σ) (p : R) (n : Nat) (s : σ) :
    after (coin uniform p) n s = after uniform n s := by
  induction n generalizing s with
  | zero => rfl
  | succ n ih => exact ih _

theorem nth_coin [Zero R] [One R] [LT R] [DecidableLT R] (uniform : σ → R × σ) (p : R) (s : σ) (n : Nat) :
    nthSample (coin uniform p) s n = if nthSample uniform s n < p then 1 else 0 := by
  rw [nthSample, after_coin]; rfl

theorem zip_same {f : R → R → R} {a b : Arr R} (h : a.shape = b.shape) :
    ∃ y, zipOp f a b = .ok y ∧ y.shape = b.shape ∧ ∀ i, InB i b.shape → y.get i = f (a.get i) (b.get i) := by
  obtain ⟨y, hy, hb⟩ := zipOp_spec (f := f) (x0 := a) (x1 := b) (t := b.shape) (by rw [h]; exact commonShape_left (broadcastsTo_self _))
  refine ⟨y, hy, hb.elementwise.1, fun i hi => ?_⟩
  rw [hb.2 i hi, h, bIdx_self hi]

variable {Op V E W : Type}

/-- A called op: its inputs, its call and its result. -/
theorem execList_called {S : Sem Op V E W} {g : Graph Op} {feeds : List (Feed V)} {env : List V} {w : W} {s' : ExecState V E W}
    {l : List (Nat × Bool)} (h : ExecList S g feeds (.start env w) l s') (hnd : (l.map Prod.fst).Nodup) {a : Nat} (ha : (a, true) ∈ l) :
    ∃ n cv env1 w1 xs w2 ws ys status r, g.nodes[a]? = some n ∧ (∀ c, Uses g a c → s'.results c = some (cv c)) ∧
      InputsAre S.shapeOf g feeds env1 cv n.incoming (.ok xs) ∧ S.compute n.op w1 xs = .done w2 ws ys status ∧
      outcomeResult S.debug (.done w2 ws ys status) = some r ∧ s'.results a = some r := by
  obtain ⟨pre, post, rfl⟩ := List.append_of_mem ha
  obtain ⟨s1, h1, h2⟩ := execList_append h
  obtain ⟨s2, h3, h4⟩ := execList_cons h2
  simp only [List.map_append, List.map_cons, List.nodup_append, List.nodup_cons] at hnd
  have hkeep : ∀ c, (s1.results c).isSome → s'.results c = s1.results c := by
    intro c hc
    have hcm := (execList_results h1 c).1 hc
    have hne : c ≠ a := hnd.2.2 c hcm a (by simp)
    have hcp : c ∉ post.map Prod.fst := fun hm => hnd.2.2 c hcm c (by simp only [List.mem_cons]; exact .inr hm) rfl
    rw [execList_keep h4 hcp]
    exact (ExecOne.node h3).1 c hne
  have hres : s'.results a = s2.results a := execList_keep h4 hnd.2.1.1
  cases h3 with
  | @run id n cv xs w1 ws ys status r env' hn ho hcv hin hc hr he =>
    exact ⟨n, cv, s1.env, s1.world, xs, w1, ws, ys, status, r, hn, fun c hcu => by rw [hkeep c (by simp [hcv c hcu])]; exact hcv c hcu, hin, hc, hr,
      by rw [hres]; simp⟩

/-- An op with a result that is not an error has been called. -/
theorem called_of_ok {S : Sem Op V E W} {g : Graph Op} {feeds : List (Feed V)} {env : List V} {w : W} {s' : ExecState V E W}
    {l : List (Nat × Bool)} (h : ExecList S g feeds (.start env w) l s') (hnd : (l.map Prod.fst).Nodup) {a : Nat} {ys : List V}
    (ha : s'.results a = some (.ok ys)) : (a, true) ∈ l := by
  obtain ⟨⟨a', b⟩, hm, rfl⟩ := List.mem_map.1 ((execList_results h a).1 (by simp [ha]))
  cases b with
  | true => exact hm
  | false =>
    obtain ⟨_, _, _, _, _, hf⟩ := execList_final h hnd hm
    obtain ⟨_, e, _, hr⟩ := hf rfl
    rw [ha] at hr
    cases hr

/-- Outcome of a call without error that appends outputs. -/
theorem outcome_ok {debug : Bool} {w : W} {ws : List (Nat × V)} {ys : List V} {st : Except E Unit} {zs : List V}
    (h : outcomeResult debug (.done w ws ys st) = some (.ok zs)) : ys = zs ∧ st = .ok () := by
  simp only [outcomeResult] at h
  split at h
  · cases h
  · cases st with
    | ok u => cases h; exact ⟨rfl, rfl⟩
    | error e => cases h

/-- If only the op of tensor `y` touches a part `cell` of the world, then this part is changed at most once in an execution, by the call of `y`. -/
theorem cell_after {Op σ : Type} {S : Sem Op V E W} {g : Graph Op} {feeds : List (Feed V)} {s0 s : ExecState V E W} {log : List (Nat × Bool)} {cell : W → σ} {y : Nat}
    (ho : ∀ t n, g.nodes[t]? = some n → t ≠ y → ∀ w xs w' ws ys st, S.compute n.op w xs = .done w' ws ys st → cell w' = cell w)
    (h : ExecList S g feeds s0 log s) (hnd : (log.map Prod.fst).Nodup) :
    (y ∉ log.map Prod.fst ∧ cell s.world = cell s0.world) ∨ ((y, false) ∈ log ∧ cell s.world = cell s0.world) ∨
      ∃ n w xs w' ws ys st r, g.nodes[y]? = some n ∧ cell w = cell s0.world ∧ S.compute n.op w xs = .done w' ws ys st ∧
        outcomeResult S.debug (.done w' ws ys st) = some r ∧ s.results y = some r ∧ cell s.world = cell w' ∧ (y, true) ∈ log := by
  induction h with
  | nil => exact .inl ⟨by simp, rfl⟩
  | @snoc l s1 e s2 hl he ih =>
    rw [List.map_append, List.nodup_append] at hnd
    obtain ⟨h1, _, h3⟩ := hnd
    obtain ⟨id, b⟩ := e
    by_cases hid : id = y
    · subst hid
      have hni : id ∉ l.map Prod.fst := fun h => h3 _ h _ (by simp) rfl
      have hc : cell s1.world = cell s0.world := by
        rcases ih h1 with h | h | ⟨_, _, _, _, _, _, _, _, _, _, _, _, _, _, hm⟩
        · exact h.2
        · exact absurd (List.mem_map_of_mem (f := Prod.fst) h.1) hni
        · exact absurd (List.mem_map_of_mem (f := Prod.fst) hm) hni
      cases he with
      | run hn _ hcv hin hcomp ho _ => exact .inr (.inr ⟨_, _, _, _, _, _, _, _, hn, hc, hcomp, ho, by simp, rfl, by simp⟩)
      | skip _ _ _ _ => exact .inr (.inl ⟨by simp, hc⟩)
    · have hc : cell s2.world = cell s1.world := by
        cases he with
        | run hn _ _ _ hcomp _ _ => exact ho _ _ hn hid _ _ _ _ _ _ hcomp
        | skip _ _ _ _ => rfl
      have hres : s2.results y = s1.results y := by
        cases he <;> simp [Ne.symm hid]
      rcases ih h1 with h | h | ⟨n, w, xs, w', ws, ys, st, r, e1, e2, e3, e4, e5, e6, e7⟩
      · refine .inl ⟨?_, hc.trans h.2⟩
        simp only [List.map_append, List.map_cons, List.map_nil, List.mem_append, List.mem_singleton, not_or]
        exact ⟨h.1, Ne.symm hid⟩
      · exact .inr (.inl ⟨by simp [h.1], hc.trans h.2⟩)
      · exact .inr (.inr ⟨n, w, xs, w', ws, ys, st, r, e1, e2, e3, e4, hres.trans e5, hc.trans e6, by simp [e7]⟩)

end Verif.Rand
