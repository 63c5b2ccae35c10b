import Verif.Lemmas.Hooks
import Verif.Props.Eval

/-! # Property theorems about hooks: C74

`call h v t` is what the hook `h` makes of the terminal (and of what closures have captured) `t` when it is called with `v`. -/

namespace Verif.Props
open Verif Verif.Spec Verif.Eval Verif.Graph Relation
variable {Op V E W T H : Type}

/-- **C74** `register_hook` gives a new tensor, with the hook on the receiver; all other tensors stay as they are. -/
theorem C74_register (g g' : Graph (HookedOp Op H)) (x b : Nat) (h : H) (hr : registerHook g x h = .ok (g', b)) :
    b = g.size ∧ HookOn g' b h x ∧ ∀ a < g.size, g'.nodes[a]? = g.nodes[a]? := by
  obtain ⟨r, _, _, h1, _, h2⟩ := build_ok hr
  subst h1
  refine ⟨rfl, ⟨_, by rw [h2]; exact List.getElem?_concat_length, rfl, rfl, rfl, rfl⟩, fun a ha => by rw [h2]; exact List.getElem?_append_left ha⟩

/-- **C74** In every evaluation that returns, whatever the ops do, the effect of the hooks is that of a list of calls in which no tensor occurs twice and hooks that a hook depends on come earlier;
the needed hooks are called with the value that their tensor then has, those whose input fails are not called, and no others are called. -/
theorem C74_called_once_in_order (O : Ops (HookedOp Op H)) (S : Sem Op V E W) (call : H → V → T → T) (g : Graph (HookedOp Op H)) (fuel : Nat) (targets : List Nat) (feeds : List (Feed V))
    (env : List V) (w : W) (t : T) (res : EvalResult V E (W × T)) (hg : Reachable O g) (ht : ∀ t ∈ targets, t < g.size)
    (h : eval (withHooks S call) g fuel targets feeds env (w, t) = some (.ok res)) :
    ∃ ks : List (Nat × H × V), res.world.2 = ks.foldl (fun t k => call k.2.1 k.2.2 t) t ∧ (ks.map Prod.fst).Nodup ∧
      (∀ pre k post, ks = pre ++ k :: post → ∀ k' ∈ ks, TransGen (Uses g) k.1 k'.1 → k' ∈ pre) ∧
      ∃ final, ExecList (withHooks S call) g feeds (.start env (w, t)) res.log final ∧
        ∀ b c v, (b, c, v) ∈ ks ↔ Needed g targets b ∧ (∃ n, g.nodes[b]? = some n ∧ n.op = .hook c) ∧ final.results b = some (.ok [v]) := by
  obtain ⟨hn, hl, final, hx, -, hwd⟩ := C04_needed_exactly_once O _ g fuel targets feeds env (w, t) res hg ht h
  have ho := C05_topological_order O _ g fuel targets feeds env (w, t) res hg ht h
  obtain ⟨ks, k1, k2, k3⟩ := execList_hooks hx hn
  have hnk := hn.sublist k2
  refine ⟨ks, by rw [← hwd, k1], hnk, fun pre k post he k' hk' hu => ?_, final, hx, fun b c v => ⟨fun hm => ⟨(hl b).1 (k2.mem (List.mem_map_of_mem (f := Prod.fst) hm)), (k3 b c v).1 hm⟩,
    fun hm => (k3 b c v).2 hm.2⟩⟩
  have := order_sublist ho hn k2 (pre := pre.map Prod.fst) (post := post.map Prod.fst) (by rw [he]; simp) (List.mem_map_of_mem (f := Prod.fst) hk') hu
  rw [he, List.map_append, List.nodup_append] at hnk
  rw [he] at hk'
  rcases List.mem_append.1 hk' with hk' | hk'
  · exact hk'
  · exact absurd rfl (hnk.2.2 _ this k'.1 (List.mem_map_of_mem (f := Prod.fst) hk'))

/-- **C74** If the other ops are functions of their inputs, the hooks are called with the values of their receivers: those that are needed, and whose receiver has a value. -/
theorem C74_called_with_value (O : Ops (HookedOp Op H)) (S : Sem Op V E W) (call : H → V → T → T) (g : Graph (HookedOp Op H)) (fuel : Nat) (targets : List Nat) (feeds : List (Feed V))
    (env : List V) (w : W) (t : T) (res : EvalResult V E (W × T)) (f : Op → List (OpInput V) → Option (Except E (List V))) (hg : Reachable O g) (ht : ∀ t ∈ targets, t < g.size)
    (hpure : ∀ a n o, Needed g targets a → g.nodes[a]? = some n → n.op = .op o → Computes S o (f o)) (hro : NeededReadOnly g targets)
    (h : eval (withHooks S call) g fuel targets feeds env (w, t) = some (.ok res)) :
    ∃ ks : List (Nat × H × V), res.world.2 = ks.foldl (fun t k => call k.2.1 k.2.2 t) t ∧ (ks.map Prod.fst).Nodup ∧
      (∀ pre k post, ks = pre ++ k :: post → ∀ k' ∈ ks, TransGen (Uses g) k.1 k'.1 → k' ∈ pre) ∧
      ∀ b c a, HookOn g b c a → ∀ v, (b, c, v) ∈ ks ↔ Needed g targets b ∧ TargetMeans (hookedFn f) S.shapeOf g feeds env a (.ok v) := by
  obtain ⟨ks, k1, k2, k3, final, hx, k4⟩ := C74_called_once_in_order O S call g fuel targets feeds env w t res hg ht h
  obtain ⟨-, hl, -⟩ := C04_needed_exactly_once O _ g fuel targets feeds env (w, t) res hg ht h
  obtain ⟨-, hm⟩ := execList_means (f := hookedFn f) (fun a n ha hn => computes_hooked fun o ho => hpure a n o ha hn ho) hro hx fun e he => (hl _).1 (List.mem_map_of_mem (f := Prod.fst) he)
  refine ⟨ks, k1, k2, k3, fun b c a hb v => ?_⟩
  rw [k4]
  constructor
  · rintro ⟨h1, -, h2⟩
    refine ⟨h1, ?_⟩
    rcases means_hook hg.wf hb (hm b _ h2) with ⟨v', h3, h4⟩ | ⟨e, h3, -⟩
    · cases h3; exact h4
    · cases h3
  · rintro ⟨h1, h2⟩
    obtain ⟨r, hr⟩ := Option.isSome_iff_exists.1 ((execList_results hx b).2 ((hl b).2 h1))
    have := means_unique (hm b r hr) (hook_means hg.wf hb h2)
    obtain ⟨n, h3, h4, -⟩ := hb
    exact ⟨h1, ⟨n, h3, h4⟩, by rw [hr, this]; rfl⟩

/-- **C74** A hook does not change values: the new tensor means what the receiver means (a value or an error). -/
theorem C74_transparent (O : Ops (HookedOp Op H)) (f : Op → List (OpInput V) → Option (Except E (List V))) (shapeOf : V → List Nat) (g : Graph (HookedOp Op H)) (feeds : List (Feed V))
    (env : List V) (hg : Reachable O g) (b a : Nat) (c : H) (hb : HookOn g b c a) (r : Except E V) :
    TargetMeans (hookedFn f) shapeOf g feeds env b r ↔ TargetMeans (hookedFn f) shapeOf g feeds env a r := by
  have key : ∀ r : Except E V, TargetMeans (hookedFn f) shapeOf g feeds env a r → TargetMeans (hookedFn f) shapeOf g feeds env b r := by
    intro r hr
    have := hook_means hg.wf hb hr
    cases r with
    | ok v => exact .result this rfl
    | error e => exact .failed this
  refine ⟨fun hr => ?_, key r⟩
  have : ∃ r', Means (hookedFn f) shapeOf g feeds env b r' := by
    obtain ⟨n, h1, -, -, h2, h3⟩ := id hb
    cases hr with
    | placeholder hn _ hf =>
      obtain ⟨_, _, h4, _⟩ := hf
      rw [h1] at hn; cases hn
      rw [h2] at h4; cases h4
    | variable_ hn hv _ =>
      rw [h1] at hn; cases hn
      rw [h3] at hv; cases hv
    | result hm _ => exact ⟨_, hm⟩
    | failed hm => exact ⟨_, hm⟩
  obtain ⟨r', hm⟩ := this
  rcases means_hook hg.wf hb hm with ⟨v, -, h4⟩ | ⟨e, -, h4⟩
  · rw [targetMeans_unique hr (key _ h4)]; exact h4
  · rw [targetMeans_unique hr (key _ h4)]; exact h4

/-- **C74** The hook belongs to the new tensor only: an evaluation of tensors that existed before, such as the receiver itself, does not call it. -/
theorem C74_old_tensors (O : Ops (HookedOp Op H)) (g g' : Graph (HookedOp Op H)) (x b : Nat) (h : H) (hg : Reachable O g) (hr : registerHook g x h = .ok (g', b)) (targets : List Nat)
    (ht : ∀ t ∈ targets, t < g.size) : ¬ Needed g' targets b := by
  obtain ⟨r, _, _, h1, _, h2⟩ := build_ok hr
  intro hn
  have := needed_old hg.wf.closed h2 ht hn
  subst h1
  exact absurd this (lt_irrefl _)

/-! ## The example of the documentation -/

/-- The other ops of the example in src/tensor.rs:177-196; of arrays only the shapes are kept. -/
inductive HkOp where
  | shape (l : List Nat) | fill | matmul | other

/-- The shapes of zeros and ones, and of matrix products. -/
def hkSem : Sem HkOp (List Nat) Unit Unit where
  compute
    | .shape l, _, _ => .done () [] [l] (.ok ())
    | .fill, _, [s] => .done () [] [s.val] (.ok ())
    | .matmul, _, [x, y] => .done () [] [[x.val.getD 0 0, y.val.getD 1 0]] (.ok ())
    | _, _, _ => .panic
  shapeOf := id
  debug := false

/-- The ops with a special role; not used in the example. -/
def hkOps : Ops (HookedOp HkOp (Hook (List Nat) (List String))) := ⟨.op .other, .op .other, .op .other, fun _ => .op .other⟩

/-- The graph of the example: `a` is tensor 2, the hook on tensor 1, `b` is tensor 5, the hook on tensor 4, `c` is tensor 6. -/
def hkCmds : List (Cmd (HookedOp HkOp (Hook (List Nat) (List String)))) :=
  [.build {} (.op (.shape [4, 2])), .build { inNodes := [{ id := 0 }] } (.op .fill), .build { inNodes := [{ id := 1 }] } (.hook .show_),
   .build {} (.op (.shape [2, 3])), .build { inNodes := [{ id := 3 }] } (.op .fill), .build { inNodes := [{ id := 4 }] } (.hook .showShape),
   .build { inNodes := [{ id := 2 }, { id := 5 }] } (.op .matmul)]

/-- The functions that the ops compute. -/
def hkFn : HkOp → List (OpInput (List Nat)) → Option (Except Unit (List (List Nat)))
  | .shape l, _ => some (.ok [l])
  | .fill, [s] => some (.ok [s.val])
  | .matmul, [x, y] => some (.ok [[x.val.getD 0 0, y.val.getD 1 0]])
  | _, _ => none

/-- Hooks that write to a list of lines. -/
def hkCall (arr shape : List Nat → String) : Hook (List Nat) (List String) → List Nat → List String → List String := Hook.call arr shape fun l t => t ++ [l]

/-- **C74** (violated) The documentation of `register_hook` (src/tensor.rs:189-195, and src/hooks.rs:11-17) says that evaluating `matmul(a, b)` prints the array of `a` and then the shape of `b`.
It prints them in the opposite order: the last input of an op is evaluated first. -/
theorem C74_documented_order_violated (arr shape : List Nat → String) :
    ∃ g ids res, Graph.empty.execAll hkOps hkCmds = .ok (g, ids) ∧ HookOn g 2 .show_ 1 ∧ HookOn g 5 .showShape 4 ∧
      eval (withHooks hkSem (hkCall arr shape)) g 100 [6] [] [] ((), []) = some (.ok res) ∧ res.results = [.ok [4, 3]] ∧ res.world.2 = [shape [2, 3], arr [4, 2]] :=
  ⟨_, _, _, rfl, ⟨_, rfl, rfl, rfl, rfl, rfl⟩, ⟨_, rfl, rfl, rfl, rfl, rfl⟩, rfl, rfl, rfl⟩

/-- **C74** (violated) A hook "on the receiver tensor" (src/tensor.rs:177) is not called when the receiver (tensor 1) is evaluated, only with the new tensor (tensor 2). -/
theorem C74_receiver_violated (arr shape : List Nat → String) :
    ∃ g ids res res', Graph.empty.execAll hkOps hkCmds = .ok (g, ids) ∧ HookOn g 2 .show_ 1 ∧
      eval (withHooks hkSem (hkCall arr shape)) g 100 [1] [] [] ((), []) = some (.ok res) ∧ res.results = [.ok [4, 2]] ∧ res.world.2 = [] ∧
      eval (withHooks hkSem (hkCall arr shape)) g 100 [2] [] [] ((), []) = some (.ok res') ∧ res'.results = [.ok [4, 2]] ∧ res'.world.2 = [arr [4, 2]] :=
  ⟨_, _, _, _, rfl, ⟨_, rfl, rfl, rfl, rfl, rfl⟩, rfl, rfl, rfl, rfl, rfl, rfl⟩

/-- The graph of the example. -/
def hkGraph : Graph (HookedOp HkOp (Hook (List Nat) (List String))) :=
  match Graph.empty.execAll hkOps hkCmds with
  | .ok (g, _) => g
  | .error _ => Graph.empty

-- The hypotheses of the theorems hold for the example; the two hooks are needed for `c`, and the receiver of the first has a value.
example (arr shape : List Nat → String) : Reachable hkOps hkGraph ∧ (∀ t ∈ [6], t < hkGraph.size) ∧
    (∃ res, eval (withHooks hkSem (hkCall arr shape)) hkGraph 100 [6] [] [] ((), []) = some (.ok res)) ∧ HookOn hkGraph 2 .show_ 1 ∧ Needed hkGraph [6] 2 ∧ Needed hkGraph [6] 5 ∧
    (∀ a n o, Needed hkGraph [6] a → hkGraph.nodes[a]? = some n → n.op = .op o → Computes hkSem o (hkFn o)) ∧ NeededReadOnly hkGraph [6] ∧
    TargetMeans (hookedFn hkFn) hkSem.shapeOf hkGraph [] [] 1 (.ok [4, 2]) := by
  have hr : Graph.empty.execAll hkOps hkCmds = .ok (hkGraph, [0, 1, 2, 3, 4, 5, 6]) := rfl
  have h0 : IsOp hkGraph 0 := ⟨_, rfl, rfl, rfl⟩
  have h1 : IsOp hkGraph 1 := ⟨_, rfl, rfl, rfl⟩
  have h2 : IsOp hkGraph 2 := ⟨_, rfl, rfl, rfl⟩
  have h5 : IsOp hkGraph 5 := ⟨_, rfl, rfl, rfl⟩
  have h6 : IsOp hkGraph 6 := ⟨_, rfl, rfl, rfl⟩
  have hm : ∀ n ∈ hkGraph.nodes, ∀ i ∈ n.incoming, i.allowMut = false := by decide
  refine ⟨Reachable.all .init hr, by decide, ⟨_, rfl⟩, ⟨_, rfl, rfl, rfl, rfl, rfl⟩,
    ⟨6, by simp, h6, .single ⟨⟨_, rfl, { id := 2 }, .head _, rfl⟩, h2⟩⟩, ⟨6, by simp, h6, .single ⟨⟨_, rfl, { id := 5 }, .tail _ (.head _), rfl⟩, h5⟩⟩, fun _ _ o _ _ _ w xs => ?_, ?_, ?_⟩
  · cases o <;> rcases xs with _ | ⟨x, _ | ⟨y, _ | ⟨z, xs⟩⟩⟩ <;> simp [hkSem, hkFn, outcomeResult]
  · rintro a vid - ⟨n, hn, i, hi, h, -⟩
    rw [hm n (List.mem_of_getElem? hn) i hi] at h
    cases h
  · have m0 : Means (hookedFn hkFn) hkSem.shapeOf hkGraph [] [] 0 (.ok [[4, 2]]) :=
      .run (cv := fun _ => .ok []) rfl h0 (by rintro b ⟨⟨n, hn, i, hi, -⟩, -⟩; cases hn; cases hi) .nil rfl
    refine .result (.run (cv := fun _ => .ok [[4, 2]]) rfl h1 ?_ (.cons (.result h0 rfl rfl) .nil) rfl) rfl
    rintro b ⟨⟨n, hn, i, hi, rfl⟩, -⟩
    cases hn
    cases hi with
    | head => exact m0
    | tail _ hi => cases hi

-- Registering a hook on the product of the example.
example : ∃ g ids g' b, Graph.empty.execAll hkOps hkCmds = .ok (g, ids) ∧ registerHook g 6 (.print "done") = .ok (g', b) := ⟨_, _, _, _, rfl, rfl⟩

end Verif.Props
