import Verif.Lemmas.GradTotal
import Verif.Lemmas.ProgramMake

/-! The gradient functions of array ops panic only if the graph gets too large. -/

namespace Verif.Prog
open Verif Verif.Graph Verif.Nd Verif.Hint Verif.Gradient Verif.Spec

/-- All recorded shape tensors exist. -/
def HintsIn (g : Graph POp) : Prop := ∀ (x : Nat) (n : Node POp) s, g.nodes[x]? = some n → n.shape = some s → s < g.nodes.length

/-- On a graph whose recorded shape tensors exist, the computation panics only if the graph gets too large, and its result satisfies `Q`. -/
def Safe {α : Type} (g : Graph POp) (m : Except GPanic (Graph POp × α)) (Q : Graph POp → α → Prop) : Prop :=
  HintsIn g → (∀ e, m = .error e → e = .graph .graphTooLarge) ∧ ∀ g' a, m = .ok (g', a) → Grows g g' ∧ HintsIn g' ∧ Q g' a

theorem Safe.bind {α β : Type} {g : Graph POp} {m : Except GPanic (Graph POp × α)} {Q : Graph POp → α → Prop} {f : Graph POp × α → Except GPanic (Graph POp × β)}
    {R : Graph POp → β → Prop} (h : Safe g m Q) (hf : ∀ g' a, Grows g g' → Q g' a → Safe g' (f (g', a)) R) : Safe g (m >>= f) R := by
  intro hi
  obtain ⟨h1, h2⟩ := h hi
  cases hm : m with
  | error e =>
    refine ⟨fun e' he => ?_, fun _ _ he => by cases he⟩
    cases he
    exact h1 _ hm
  | ok v =>
    obtain ⟨g1, a⟩ := v
    obtain ⟨h3, h4, h5⟩ := h2 g1 a hm
    obtain ⟨h6, h7⟩ := hf g1 a h3 h5 h4
    refine ⟨h6, fun g' b hb => ?_⟩
    obtain ⟨h8, h9⟩ := h7 g' b hb
    exact ⟨h3.trans h8, h9⟩

theorem Safe.pure {α : Type} {g : Graph POp} {a : α} {Q : Graph POp → α → Prop} (h : Q g a) : Safe g (.ok (g, a)) Q := by
  intro hi
  refine ⟨fun _ he => (by cases he), fun g' b hb => ?_⟩
  cases hb
  exact ⟨grows_refl _, hi, h⟩

theorem hintsIn_build {g g' : Graph POp} {b : Builder} {op : POp} {t : Nat} (hi : HintsIn g) (h : g.build b op = .ok (g', t))
    (hs : ∀ s, b.shape = some s → s < g.nodes.length) : HintsIn g' ∧ t < g'.nodes.length := by
  obtain ⟨r, _, _, ht, _, e⟩ := build_ok h
  have hlen : g'.nodes.length = g.nodes.length + 1 := by rw [e]; simp
  refine ⟨fun x n s hx hn => ?_, by rw [hlen]; have := (build_node h); obtain ⟨r', hr'⟩ := this; have := (List.getElem?_eq_some_iff.1 hr').1; omega⟩
  rw [e] at hx
  rcases Nat.lt_trichotomy x g.nodes.length with h1 | h1 | h1
  · rw [List.getElem?_append_left h1] at hx
    have := hi x n s hx hn
    omega
  · rw [h1, List.getElem?_append_right (Nat.le_refl _)] at hx
    simp at hx
    subst hx
    have := hs s hn
    omega
  · rw [List.getElem?_eq_none (by simp; omega)] at hx; cases hx

theorem build_safe {g : Graph POp} {b : Builder} {op : POp} (hin : ∀ i ∈ b.inNodes, i.id < g.nodes.length) (hs : ∀ s, b.shape = some s → s < g.nodes.length) :
    Safe g (lift (g.build b op)) (fun g' t => t < g'.nodes.length) := by
  intro hi
  cases h : g.build b op with
  | error p => exact ⟨fun e he => by cases he; rw [build_error h hin], fun _ _ he => by cases he⟩
  | ok v =>
    refine ⟨fun e he => (by cases he), fun g' t he => ?_⟩
    cases he
    obtain ⟨h1, h2⟩ := hintsIn_build hi h hs
    exact ⟨build_grows h, h1, h2⟩

theorem shape_safe {g : Graph POp} {x : Nat} (hx : x < g.nodes.length) : Safe g (mkShape g x) (fun g' t => t < g'.nodes.length) := by
  intro hi
  have hn := List.getElem?_eq_getElem hx
  have : mkShape g x = match (g.nodes[x]).shape with
      | some s => .ok (g, s)
      | none => lift (g.build { inNodes := [{ id := x }], differentiable := false } hintOps.shapeOp) := by
    simp only [mkShape, Hint.shape, access_some.2 hn, bind, Except.bind]
    cases (g.nodes[x]).shape <;> rfl
  rw [this]
  cases hs : (g.nodes[x]).shape with
  | some s => exact Safe.pure (hi x _ s hn hs) hi
  | none => exact build_safe (by simpa using hx) (by simp) hi

theorem lift_bind {α β : Type} (m : Except Panic α) (f : α → Except Panic β) : lift (m >>= f) = lift m >>= fun a => lift (f a) := by
  cases m <;> rfl

/-- The tensors that a constructor call refers to. -/
def ctorUses : Ctor POp → List Nat
  | .plain _ ins => ins.map Incoming.id
  | .like _ ins x => x :: ins.map Incoming.id
  | .binary _ a b => [a, b]
  | .sized _ ins t => t :: ins.map Incoming.id
  | _ => []

theorem mk_safe {g : Graph POp} {c : Ctor POp} {op : POp} {is : List Incoming} (hc : ctorApp c = some (op, is)) (hu : ∀ x ∈ ctorUses c, x < g.nodes.length) :
    Safe g (mk g c) (fun g' t => t < g'.nodes.length) := by
  have hmap : ∀ {ins : List Incoming} {g : Graph POp}, (∀ x ∈ ins.map Incoming.id, x < g.nodes.length) → ∀ i ∈ ins, i.id < g.nodes.length :=
    fun h i hi => h _ (List.mem_map_of_mem hi)
  cases c with
  | plain op' ins => exact build_safe (hmap hu) (by simp)
  | like op' ins x =>
    simp only [ctorUses, List.mem_cons, forall_eq_or_imp] at hu
    unfold mk construct
    rw [lift_bind]
    refine (shape_safe (x := x) hu.1).bind fun g' s hg hs => ?_
    exact build_safe (fun i hi => grows_lt hg (hmap hu.2 i hi)) (by simpa using hs)
  | binary op' a b =>
    simp only [ctorUses, List.mem_cons, List.not_mem_nil, or_false, forall_eq_or_imp, forall_eq] at hu
    unfold mk construct
    rw [lift_bind]
    refine (shape_safe (x := a) hu.1).bind fun g1 sa h1 hsa => ?_
    show Safe g1 (lift (Hint.shape hintOps g1 b >>= _)) _
    rw [lift_bind]
    refine (shape_safe (x := b) (grows_lt h1 hu.2)).bind fun g2 sb h2 hsb => ?_
    show Safe g2 (lift (g2.build _ _ >>= _)) _
    rw [lift_bind]
    refine (build_safe (by simpa using ⟨grows_lt h2 hsa, hsb⟩) (by simp)).bind fun g3 s h3 hs => ?_
    exact build_safe (by simpa using ⟨grows_lt (h1.trans (h2.trans h3)) hu.1, grows_lt (h1.trans (h2.trans h3)) hu.2⟩) (by simpa using hs)
  | sized op' ins t =>
    simp only [ctorUses, List.mem_cons, forall_eq_or_imp] at hu
    exact build_safe (hmap hu.2) (by simpa using hu.1)
  | const s op' =>
    unfold mk construct
    rw [lift_bind]
    refine (build_safe (by simp) (by simp)).bind fun g1 t h1 ht => ?_
    exact build_safe (by simp) (by simpa using ht)
  | scalar op' =>
    unfold mk construct
    rw [lift_bind]
    refine (build_safe (by simp) (by simp)).bind fun g1 t h1 ht => ?_
    show Safe g1 (lift (g1.build _ _ >>= _)) _
    rw [lift_bind]
    refine (build_safe (by simp) (by simpa using ht)).bind fun g2 t h1 ht => ?_
    exact build_safe (by simp) (by simpa using ht)
  | var _ => cases hc
  | placeholder _ _ => cases hc
  | shapeOf _ => cases hc
  | fixed _ _ => cases hc

theorem un_safe {g : Graph POp} {x : Nat} (op : EOp) (hx : x < g.nodes.length) : Safe g (mk g (unCtor op x)) (fun g' t => t < g'.nodes.length) := by
  refine mk_safe (unCtor_app op x) ?_
  cases op <;> simpa [unCtor, ctorUses] using hx

theorem binary_safe {g : Graph POp} {a b : Nat} (op : POp) (ha : a < g.nodes.length) (hb : b < g.nodes.length) :
    Safe g (mk g (.binary op a b)) (fun g' t => t < g'.nodes.length) := mk_safe rfl (by simpa [ctorUses] using ⟨ha, hb⟩)

theorem plain_safe {g : Graph POp} {xs : List Nat} (op : POp) (h : ∀ x ∈ xs, x < g.nodes.length) :
    Safe g (mk g (.plain op (xs.map inp))) (fun g' t => t < g'.nodes.length) := mk_safe rfl (by simpa [ctorUses] using h)

theorem reduce_safe {g : Graph POp} {x s : Nat} (hx : x < g.nodes.length) (hs : s < g.nodes.length) :
    Safe g (mk g (reduceTo x s)) (fun g' t => t < g'.nodes.length) := mk_safe rfl (by simpa [ctorUses, reduceTo] using ⟨hs, hx, hs⟩)

theorem buildE_safe {x y gy : Nat} : ∀ (e : EExp) {g : Graph POp}, x < g.nodes.length → y < g.nodes.length → gy < g.nodes.length →
    Safe g (buildE x y gy e g) (fun g' t => t < g'.nodes.length) := by
  intro e
  induction e with
  | x => intro g h1 h2 h3; exact Safe.pure h1
  | y => intro g h1 h2 h3; exact Safe.pure h2
  | gy => intro g h1 h2 h3; exact Safe.pure h3
  | const c => intro g h1 h2 h3; exact mk_safe rfl (by simp [ctorUses])
  | app op e ih =>
    intro g h1 h2 h3
    exact (ih h1 h2 h3).bind fun g1 a hg ha => un_safe op ha
  | add a b iha ihb =>
    intro g h1 h2 h3
    exact (iha h1 h2 h3).bind fun g1 u hg hu => (ihb (grows_lt hg h1) (grows_lt hg h2) (grows_lt hg h3)).bind fun g2 v hg' hv => binary_safe _ (grows_lt hg' hu) hv
  | sub a b iha ihb =>
    intro g h1 h2 h3
    exact (iha h1 h2 h3).bind fun g1 u hg hu => (ihb (grows_lt hg h1) (grows_lt hg h2) (grows_lt hg h3)).bind fun g2 v hg' hv => binary_safe _ (grows_lt hg' hu) hv
  | mul a b iha ihb =>
    intro g h1 h2 h3
    exact (iha h1 h2 h3).bind fun g1 u hg hu => (ihb (grows_lt hg h1) (grows_lt hg h2) (grows_lt hg h3)).bind fun g2 v hg' hv => binary_safe _ (grows_lt hg' hu) hv
  | div a b iha ihb =>
    intro g h1 h2 h3
    exact (iha h1 h2 h3).bind fun g1 u hg hu => (ihb (grows_lt hg h1) (grows_lt hg h2) (grows_lt hg h3)).bind fun g2 v hg' hv => binary_safe _ (grows_lt hg' hu) hv
  | greater a b iha ihb =>
    intro g h1 h2 h3
    exact (iha h1 h2 h3).bind fun g1 u hg hu => (ihb (grows_lt hg h1) (grows_lt hg h2) (grows_lt hg h3)).bind fun g2 v hg' hv =>
      plain_safe (xs := [u, v]) _ (by simpa using ⟨grows_lt hg' hu, hv⟩)
  | eluGrad al a b iha ihb =>
    intro g h1 h2 h3
    exact (iha h1 h2 h3).bind fun g1 u hg hu => (ihb (grows_lt hg h1) (grows_lt hg h2) (grows_lt hg h3)).bind fun g2 v hg' hv =>
      mk_safe rfl (by simpa [ctorUses] using ⟨hv, grows_lt hg' hu, hv⟩)
  | clipGrad lo hi a b iha ihb =>
    intro g h1 h2 h3
    exact (iha h1 h2 h3).bind fun g1 u hg hu => (ihb (grows_lt hg h1) (grows_lt hg h2) (grows_lt hg h3)).bind fun g2 v hg' hv =>
      mk_safe rfl (by simpa [ctorUses] using ⟨hv, grows_lt hg' hu, hv⟩)

/-- The references are to inputs and to tensors built before; `n` inputs, `k` tensors. -/
def Ref.Fits (n k : Nat) : Ref → Prop
  | .x j => j < n
  | .t j => j < k
  | _ => True

/-- The same for a command. -/
def Cmd.Fits (n k : Nat) : Cmd → Prop
  | .shape a => a.Fits n k
  | .bin _ a b => a.Fits n k ∧ b.Fits n k
  | .plain _ as => ∀ a ∈ as, a.Fits n k
  | .like _ as b => (∀ a ∈ as, a.Fits n k) ∧ b.Fits n k
  | .un _ a => a.Fits n k
  | .nth a _ => a.Fits n k
  | .withBp _ as _ => ∀ a ∈ as, a.Fits n k
  | _ => True

/-- The same for a list of commands. -/
def fitAll (n : Nat) : Nat → List Cmd → Prop
  | _, [] => True
  | k, c :: cs => c.Fits n k ∧ fitAll n (k + 1) cs

theorem ref_lt {xs ts : List Nat} {y gy : Nat} {g : Graph POp} (hx : ∀ x ∈ xs, x < g.nodes.length) (hy : y < g.nodes.length) (hgy : gy < g.nodes.length)
    (ht : ∀ t ∈ ts, t < g.nodes.length) : ∀ {a : Ref}, a.Fits xs.length ts.length → a.id xs y gy ts < g.nodes.length
  | .x k, h => by
    have h : k < xs.length := h
    simp only [Ref.id, List.getD_eq_getElem?_getD, List.getElem?_eq_getElem h, Option.getD_some]
    exact hx _ (List.getElem_mem h)
  | .y, _ => hy
  | .gy, _ => hgy
  | .t k, h => by
    have h : k < ts.length := h
    simp only [Ref.id, List.getD_eq_getElem?_getD, List.getElem?_eq_getElem h, Option.getD_some]
    exact ht _ (List.getElem_mem h)

theorem cmd_safe {xs ts : List Nat} {y gy : Nat} {g : Graph POp} (hx : ∀ x ∈ xs, x < g.nodes.length) (hy : y < g.nodes.length) (hgy : gy < g.nodes.length)
    (ht : ∀ t ∈ ts, t < g.nodes.length) : ∀ {c : Cmd}, c.Fits xs.length ts.length → Safe g (c.build (Ref.id xs y gy ts) g) (fun g' t => t < g'.nodes.length)
  | .shape a, h => shape_safe (ref_lt hx hy hgy ht h)
  | .bin op a b, h => binary_safe op (ref_lt hx hy hgy ht h.1) (ref_lt hx hy hgy ht h.2)
  | .plain op as, h => by
    have := plain_safe (g := g) (xs := as.map (Ref.id xs y gy ts)) op (by
      intro x hx'
      obtain ⟨a, ha, rfl⟩ := List.mem_map.1 hx'
      exact ref_lt hx hy hgy ht (h a ha))
    rw [List.map_map] at this
    exact this
  | .like op as b, h => by
    refine mk_safe (op := op) (is := as.map (fun a => inp (Ref.id xs y gy ts a))) rfl ?_
    simp only [ctorUses, List.map_map, List.mem_cons, forall_eq_or_imp]
    refine ⟨ref_lt hx hy hgy ht h.2, fun x hx' => ?_⟩
    obtain ⟨a, ha, rfl⟩ := List.mem_map.1 hx'
    exact ref_lt hx hy hgy ht (h.1 a ha)
  | .un op a, h => un_safe op (ref_lt hx hy hgy ht h)
  | .scalar _, _ => mk_safe rfl (by simp [ctorUses])
  | .vec _, _ => mk_safe rfl (by simp [ctorUses])
  | .nth a n, h => mk_safe rfl (by simpa [ctorUses] using ref_lt hx hy hgy ht h)
  | .withBp op as bps, h => by
    refine build_safe (fun i hi => ?_) (by simp)
    obtain ⟨a, ha, rfl⟩ := List.mem_map.1 hi
    exact ref_lt hx hy hgy ht (h a ha)

theorem cmds_safe {xs : List Nat} {y gy : Nat} : ∀ {cs : List Cmd} {ts : List Nat} {g : Graph POp}, (∀ x ∈ xs, x < g.nodes.length) → y < g.nodes.length →
    gy < g.nodes.length → (∀ t ∈ ts, t < g.nodes.length) → fitAll xs.length ts.length cs →
    Safe g (runCmds xs y gy cs ts g) (fun g' ts' => ts'.length = ts.length + cs.length ∧ ∀ t ∈ ts', t < g'.nodes.length) := by
  intro cs
  induction cs with
  | nil => intro ts g hx hy hgy ht _; exact Safe.pure ⟨by simp, ht⟩
  | cons c cs ih =>
    intro ts g hx hy hgy ht hf
    refine (cmd_safe hx hy hgy ht hf.1).bind fun g1 t hg htn => ?_
    have := ih (ts := ts ++ [t]) (g := g1) (fun x h => grows_lt hg (hx x h)) (grows_lt hg hy) (grows_lt hg hgy) (by
      intro t' ht'
      rcases List.mem_append.1 ht' with h | h
      · exact grows_lt hg (ht t' h)
      · rw [List.mem_singleton.1 h]; exact htn) (by rw [List.length_append]; exact hf.2)
    intro hi
    obtain ⟨h1, h2⟩ := this hi
    refine ⟨h1, fun g' a ha => ?_⟩
    obtain ⟨h3, h4, h5, h6⟩ := h2 g' a ha
    refine ⟨h3, h4, ?_, h6⟩
    rw [h5, List.length_append, List.length_singleton, List.length_cons]; omega

/-- Reported gradients exist. -/
def Reported (g : Graph POp) (gxs : List (Option Nat)) : Prop := ∀ t, some t ∈ gxs → t < g.nodes.length

theorem gradCmds_safe {xs : List Nat} {y gy : Nat} {cs : List Cmd} {out : List (Option Ref)} {g : Graph POp} (hx : ∀ x ∈ xs, x < g.nodes.length)
    (hy : y < g.nodes.length) (hgy : gy < g.nodes.length) (hf : fitAll xs.length 0 cs) (ho : ∀ a, some a ∈ out → a.Fits xs.length cs.length) :
    Safe g (gradCmds xs y gy cs out g) Reported := by
  refine (cmds_safe (ts := []) hx hy hgy (by simp) hf).bind fun g1 ts hg hts => ?_
  refine Safe.pure fun t ht => ?_
  obtain ⟨o, h1, h2⟩ := List.mem_map.1 ht
  cases o with
  | none => cases h2
  | some a =>
    cases h2
    exact ref_lt (fun x h => grows_lt hg (hx x h)) (grows_lt hg hy) (grows_lt hg hgy) hts.2 (by rw [hts.1]; simpa using ho a h1)

/-- The op has the given number of inputs. -/
def Arity : POp → List Nat → Prop
  | .const _, [] => True
  | .scalar _, [] => True
  | .shape, [_] => True
  | .size, [_] => True
  | .infer, [_, _] => True
  | .addN, _ => True
  | .add, [_, _] => True
  | .sub, [_, _] => True
  | .mul, [_, _] => True
  | .div, [_, _] => True
  | .un _, [_] => True
  | .matMul _ _, [_, _] => True
  | .sumAll, [_] => True
  | .reduceSum _, [_, _] => True
  | .reduceMean _, [_, _] => True
  | .softmax _ _ _, [_] => True
  | .logSoftmax _ _ _, [_] => True
  | .sigmoidCE, [_, _] => True
  | .sparseCE _ _, [_, _] => True
  | .zeros, [_] => True
  | .ones, [_] => True
  | .ident, [_] => True
  | .slice _ _, [_] => True
  | .squeeze, [_, _] => True
  | .transpose _, [_, _] => True
  | .reshape, [_, _] => True
  | .gather _ _, [_, _] => True
  | .expandDims, [_, _] => True
  | .conv2d _ _ _, [_, _] => True
  | .maxPool _ _ _ _, [_] => True
  | .dropout _ _ _, [_] => True
  | .argMax _ _ _ _, [_] => True
  | .maybeReduce, [_, _] => True
  | .maybeBroadcast, [_, _] => True
  | .sumAllGrad, [_, _] => True
  | .index _, [_] => True
  | .extremum _, [_, _] => True
  | .reduceExt _ _ _, [_, _] => True
  | .stop, [_] => True
  | _, _ => False

theorem gradOf_safe {g : Graph POp} {y gy : Nat} : ∀ {op : POp} {xs : List Nat}, Arity op xs → (∀ x ∈ xs, x < g.nodes.length) → y < g.nodes.length →
    gy < g.nodes.length → Safe g (gradOf g y gy op xs) Reported := by
  intro op xs ha hx hy hgy
  have one : ∀ {g : Graph POp} {a : Nat}, a < g.nodes.length → Reported g [some a] := fun h t ht => by simp at ht; exact ht ▸ h
  have two : ∀ {g : Graph POp} {a b : Nat}, a < g.nodes.length → b < g.nodes.length → Reported g [some a, some b] := fun h h' t ht => by
    simp at ht; rcases ht with rfl | rfl <;> assumption
  have onen : ∀ {g : Graph POp} {a : Nat}, a < g.nodes.length → Reported g [some a, none] := fun h t ht => by simp at ht; exact ht ▸ h
  unfold Arity at ha
  split at ha
  · exact Safe.pure (by simp [Reported])
  · exact Safe.pure (by simp [Reported])
  · exact Safe.pure (by simp [Reported])
  · exact Safe.pure (by simp [Reported])
  · exact Safe.pure (by simp [Reported])
  · exact Safe.pure (fun t ht => by
      obtain ⟨_, _, e⟩ := List.mem_map.1 ht
      cases e; exact hgy)
  · rename_i a b
    simp only [List.mem_cons, List.not_mem_nil, or_false, forall_eq_or_imp, forall_eq] at hx
    exact (shape_safe hx.1).bind fun g1 s0 h1 k1 => (shape_safe (grows_lt h1 hx.2)).bind fun g2 s1 h2 k2 =>
      (reduce_safe (grows_lt h2 (grows_lt h1 hgy)) (grows_lt h2 k1)).bind fun g3 t0 h3 k3 =>
      (reduce_safe (grows_lt h3 (grows_lt h2 (grows_lt h1 hgy))) (grows_lt h3 k2)).bind fun g4 t1 h4 k4 => Safe.pure (two (grows_lt h4 k3) k4)
  · rename_i a b
    simp only [List.mem_cons, List.not_mem_nil, or_false, forall_eq_or_imp, forall_eq] at hx
    exact (shape_safe hx.1).bind fun g1 s0 h1 k1 => (shape_safe (grows_lt h1 hx.2)).bind fun g2 s1 h2 k2 =>
      (reduce_safe (grows_lt h2 (grows_lt h1 hgy)) (grows_lt h2 k1)).bind fun g3 t0 h3 k3 =>
      (reduce_safe (grows_lt h3 (grows_lt h2 (grows_lt h1 hgy))) (grows_lt h3 k2)).bind fun g4 t1 h4 k4 =>
      (un_safe .neg k4).bind fun g5 t2 h5 k5 => Safe.pure (two (grows_lt h5 (grows_lt h4 k3)) k5)
  · rename_i a b
    simp only [List.mem_cons, List.not_mem_nil, or_false, forall_eq_or_imp, forall_eq] at hx
    refine (shape_safe hx.1).bind fun g1 s0 h1 k1 => (shape_safe (grows_lt h1 hx.2)).bind fun g2 s1 h2 k2 => ?_
    have e2 := h1.trans h2
    refine (binary_safe .mul (grows_lt e2 hgy) (grows_lt e2 hx.2)).bind fun g3 m0 h3 k3 => ?_
    have e3 := e2.trans h3
    refine (binary_safe .mul (grows_lt e3 hgy) (grows_lt e3 hx.1)).bind fun g4 m1 h4 k4 => ?_
    refine (reduce_safe (grows_lt h4 k3) (grows_lt (h2.trans (h3.trans h4)) k1)).bind fun g5 t0 h5 k5 => ?_
    refine (reduce_safe (grows_lt h5 k4) (grows_lt (h3.trans (h4.trans h5)) k2)).bind fun g6 t1 h6 k6 => ?_
    exact Safe.pure (two (grows_lt h6 k5) k6)
  · rename_i a b
    simp only [List.mem_cons, List.not_mem_nil, or_false, forall_eq_or_imp, forall_eq] at hx
    refine (shape_safe hx.1).bind fun g1 s0 h1 k1 => (shape_safe (grows_lt h1 hx.2)).bind fun g2 s1 h2 k2 => ?_
    have e2 := h1.trans h2
    refine (binary_safe .div (grows_lt e2 hgy) (grows_lt e2 hx.2)).bind fun g3 m0 h3 k3 => ?_
    have e3 := e2.trans h3
    refine (un_safe .neg (grows_lt e3 hx.1)).bind fun g4 n h4 k4 => ?_
    refine (un_safe (.pow (-2)) (grows_lt (e3.trans h4) hx.2)).bind fun g5 q h5 k5 => ?_
    refine (binary_safe .mul (grows_lt h5 k4) k5).bind fun g6 m h6 k6 => ?_
    have e6 := ((e3.trans h4).trans h5).trans h6
    refine (binary_safe .mul k6 (grows_lt e6 hgy)).bind fun g7 m1 h7 k7 => ?_
    refine (reduce_safe (grows_lt (((h4.trans h5).trans h6).trans h7) k3) (grows_lt (((((h2.trans h3).trans h4).trans h5).trans h6).trans h7) k1)).bind fun g8 t0 h8 k8 => ?_
    refine (reduce_safe (grows_lt h8 k7) (grows_lt (((((h3.trans h4).trans h5).trans h6).trans h7).trans h8) k2)).bind fun g9 t1 h9 k9 => ?_
    exact Safe.pure (two (grows_lt h9 k8) k9)
  · rename_i op x
    simp only [List.mem_cons, List.not_mem_nil, or_false, forall_eq] at hx
    cases he : op.grad with
    | none =>
      simp only [gradOf, he]
      exact Safe.pure (by simp [Reported])
    | some e =>
      simp only [gradOf, he]
      exact (buildE_safe e hx hy hgy).bind fun g1 t h1 k1 => Safe.pure (one k1)
  · rename_i a b
    simp only [List.mem_cons, List.not_mem_nil, or_false, forall_eq_or_imp, forall_eq] at hx
    exact (plain_safe (xs := [gy, b]) _ (by simpa using ⟨hgy, hx.2⟩)).bind fun g1 t0 h1 k1 =>
      (plain_safe (xs := [a, gy]) _ (by simpa using ⟨grows_lt h1 hx.1, grows_lt h1 hgy⟩)).bind fun g2 t1 h2 k2 => Safe.pure (two (grows_lt h2 k1) k2)
  · rename_i a
    simp only [List.mem_cons, List.not_mem_nil, or_false, forall_eq] at hx
    exact (shape_safe hx).bind fun g1 s h1 k1 => (plain_safe (xs := [gy, s]) _ (by simpa using ⟨grows_lt h1 hgy, k1⟩)).bind fun g2 t h2 k2 => Safe.pure (one k2)
  · rename_i x a
    simp only [List.mem_cons, List.not_mem_nil, or_false, forall_eq_or_imp, forall_eq] at hx
    exact (shape_safe hx.1).bind fun g1 s h1 k1 =>
      (plain_safe (xs := [gy, s, a]) _ (by simpa using ⟨grows_lt h1 hgy, k1, grows_lt h1 hx.2⟩)).bind fun g2 t h2 k2 => Safe.pure (onen k2)
  · exact gradCmds_safe hx hy hgy (by simp [fitAll, meanCmds, Cmd.Fits, Ref.Fits]) (by simp [Ref.Fits, meanCmds])
  · exact gradCmds_safe hx hy hgy (by simp [fitAll, softmaxCmds, Cmd.Fits, Ref.Fits]) (by simp [Ref.Fits, softmaxCmds])
  · exact gradCmds_safe hx hy hgy (by simp [fitAll, logSoftmaxCmds, Cmd.Fits, Ref.Fits]) (by simp [Ref.Fits, logSoftmaxCmds])
  · exact gradCmds_safe hx hy hgy (by simp [fitAll, sigmoidCECmds, Cmd.Fits, Ref.Fits]) (by simp [Ref.Fits, sigmoidCECmds])
  · exact gradCmds_safe hx hy hgy (by simp [fitAll, sparseCECmds, Cmd.Fits, Ref.Fits]) (by simp [Ref.Fits, sparseCECmds])
  · exact Safe.pure (by simp [Reported])
  · exact Safe.pure (by simp [Reported])
  · exact Safe.pure (one hgy)
  · exact gradCmds_safe hx hy hgy (by simp [fitAll, sliceCmds, Cmd.Fits, Ref.Fits]) (by simp [Ref.Fits, sliceCmds])
  · exact gradCmds_safe hx hy hgy (by simp [fitAll, squeezeCmds, Cmd.Fits, Ref.Fits]) (by simp [Ref.Fits, squeezeCmds])
  · exact gradCmds_safe hx hy hgy (by simp [fitAll, transposeCmds, Cmd.Fits, Ref.Fits]) (by simp [Ref.Fits, transposeCmds])
  · exact gradCmds_safe hx hy hgy (by simp [fitAll, reshapeCmds, Cmd.Fits, Ref.Fits]) (by simp [Ref.Fits, reshapeCmds])
  · exact gradCmds_safe hx hy hgy (by simp [fitAll, gatherCmds, Cmd.Fits, Ref.Fits]) (by simp [Ref.Fits, gatherCmds])
  · exact gradCmds_safe hx hy hgy (by simp [fitAll, Cmd.Fits, Ref.Fits]) (by simp [Ref.Fits])
  · exact gradCmds_safe hx hy hgy (by simp [fitAll, convCmds, Cmd.Fits, Ref.Fits]) (by simp [Ref.Fits, convCmds])
  · exact gradCmds_safe hx hy hgy (by simp [fitAll, poolCmds, Cmd.Fits, Ref.Fits]) (by simp [Ref.Fits, poolCmds])
  · exact gradCmds_safe hx hy hgy (by simp [fitAll, dropoutCmds, Cmd.Fits, Ref.Fits]) (by simp [Ref.Fits, dropoutCmds])
  · exact Safe.pure (by simp [Reported])
  · rename_i x a
    simp only [List.mem_cons, List.not_mem_nil, or_false, forall_eq_or_imp, forall_eq] at hx
    exact (shape_safe hx.1).bind fun g1 s h1 k1 =>
      (plain_safe (xs := [gy, s]) _ (by simpa using ⟨grows_lt h1 hgy, k1⟩)).bind fun g2 t h2 k2 => Safe.pure (onen k2)
  · rename_i x a
    simp only [List.mem_cons, List.not_mem_nil, or_false, forall_eq_or_imp, forall_eq] at hx
    exact (shape_safe hx.1).bind fun g1 s h1 k1 => (reduce_safe (grows_lt h1 hgy) k1).bind fun g2 t h2 k2 => Safe.pure (onen k2)
  · rename_i x a
    simp only [List.mem_cons, List.not_mem_nil, or_false, forall_eq_or_imp, forall_eq] at hx
    exact (plain_safe (xs := [gy]) _ (by simpa using hgy)).bind fun g2 t h2 k2 => Safe.pure (onen k2)
  · exact gradCmds_safe hx hy hgy (by simp [fitAll, indexCmds, Cmd.Fits, Ref.Fits]) (by simp [Ref.Fits, indexCmds])
  · exact gradCmds_safe hx hy hgy (by simp [fitAll, extremumCmds, Cmd.Fits, Ref.Fits]) (by simp [Ref.Fits, extremumCmds])
  · exact gradCmds_safe hx hy hgy (by simp [fitAll, reduceExtCmds, Cmd.Fits, Ref.Fits]) (by simp [Ref.Fits, reduceExtCmds])
  · exact Safe.pure (by intro t ht; simp at ht)
  · exact ha.elim

end Verif.Prog
