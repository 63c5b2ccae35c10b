import Verif.Lemmas.ProgramTotal

/-! How many tensors `grad` adds to a graph. -/

namespace Verif.Gradient
open Verif Verif.Graph Verif.Spec

/-- The computation starts with `n` tensors, adds at most `k`, and fails with `bad` only if the limit is exceeded by then. -/
structure Adds {ε β : Type} (bad : ε) (k n : Nat) (m : Except ε β) (len : β → Nat) : Prop where
  ok : ∀ v, m = .ok v → len v ≤ n + k
  err : m = .error bad → numNodesCritical < n + k

section
variable {ε β γ : Type} {bad : ε} {k k' n : Nat} {m : Except ε β} {len : β → Nat} {len' : γ → Nat}

theorem Adds.bind {f : β → Except ε γ} (h : Adds bad k n m len) (hf : ∀ v, Adds bad k' (len v) (f v) len') : Adds bad (k + k') n (m >>= f) len' := by
  cases m with
  | error p =>
    refine ⟨fun v h' => (by cases h'), fun h' => ?_⟩
    have := h.err (by simpa [Bind.bind, Except.bind] using h')
    omega
  | ok v =>
    have h1 := h.ok v rfl
    have h2 := hf v
    refine ⟨fun w hw => ?_, fun hw => ?_⟩
    · have := h2.ok w hw; omega
    · have := h2.err hw; omega

theorem Adds.mono (h : Adds bad k n m len) (hk : k ≤ k') : Adds bad k' n m len :=
  ⟨fun v hv => (h.ok v hv).trans (by omega), fun hv => by have := h.err hv; omega⟩

theorem Adds.pure {v : β} (h : len v ≤ n + k) : Adds bad k n (.ok v) len := ⟨fun w hw => (by cases hw; exact h), fun h => (by cases h)⟩

theorem Adds.skip {p : ε} (h : p ≠ bad) : Adds bad k n (.error p : Except ε β) len := ⟨fun w hw => (by cases hw), fun hw => absurd (Except.error.inj hw) h⟩

end

variable {Op : Type}

/-- The length of the graph in a result. -/
def glen {α : Type} (v : Graph Op × α) : Nat := v.1.nodes.length

theorem Adds.lift {β : Type} {k n : Nat} {m : Except Panic β} {len : β → Nat} (h : Adds .graphTooLarge k n m len) : Adds (.graph .graphTooLarge) k n (Gradient.lift m) len := by
  cases m with
  | ok v => exact ⟨fun w hw => (by cases hw; exact h.ok v rfl), fun h => (by cases h)⟩
  | error p => exact ⟨fun w hw => (by cases hw), fun hw => h.err (by cases hw; rfl)⟩

theorem adds_access {g : Graph Op} {x : Nat} {n : Nat} : Adds Panic.graphTooLarge 0 n (g.access x) (fun _ => n) := by
  refine ⟨fun _ _ => Nat.le_refl _, fun h => ?_⟩
  unfold Graph.access at h
  split at h <;> cases h

theorem adds_rank {g : Graph Op} {is : List Incoming} {n : Nat} : Adds Panic.graphTooLarge 0 n (g.buildRank is) (fun _ => n) := by
  induction is with
  | nil => exact .pure (Nat.le_refl _)
  | cons i is ih => exact .bind (k := 0) (k' := 0) (len := fun _ => n) adds_access fun _ => .bind (k := 0) (k' := 0) (len := fun _ => n) ih fun _ => .pure (Nat.le_refl _)

theorem adds_build {g : Graph Op} {b : Builder} {op : Op} : Adds Panic.graphTooLarge 1 g.nodes.length (g.build b op) glen := by
  refine .mono (k := 0 + 1) (.bind adds_rank fun r => ?_) (Nat.le_refl _)
  unfold Graph.install
  split
  · rename_i h
    exact ⟨fun v hv => (by cases hv), fun _ => by unfold Graph.size at h; omega⟩
  · exact .pure (by simp [glen])

theorem adds_shape {H : Hint.HintOps Op} {g : Graph Op} {x : Nat} : Adds Panic.graphTooLarge 1 g.nodes.length (Hint.shape H g x) glen := by
  refine .mono (k := 0 + 1) (.bind adds_access fun n => ?_) (Nat.le_refl _)
  split
  · exact .pure (by simp [glen])
  · exact adds_build

/-- How many tensors a constructor adds at most. -/
def ctorCost : Hint.Ctor Op → Nat
  | .plain _ _ | .sized _ _ _ | .shapeOf _ | .fixed _ _ | .var _ => 1
  | .like _ _ _ | .const _ _ => 2
  | .scalar _ | .placeholder _ _ => 3
  | .binary _ _ _ => 4

theorem adds_construct {H : Hint.HintOps Op} {g : Graph Op} (c : Hint.Ctor Op) : Adds Panic.graphTooLarge (ctorCost c) g.nodes.length (Hint.construct H g c) glen := by
  cases c with
  | plain op ins => exact adds_build
  | like op ins x => exact .bind (k := 1) (k' := 1) adds_shape fun v => adds_build
  | binary op a b => exact .bind (k := 1) (k' := 3) adds_shape fun v => .bind (k := 1) (k' := 2) adds_shape fun w => .bind (k := 1) (k' := 1) adds_build fun u => adds_build
  | sized op ins t => exact adds_build
  | const s op => exact .bind (k := 1) (k' := 1) adds_build fun v => adds_build
  | scalar op => exact .bind (k := 1) (k' := 2) adds_build fun v => .bind (k := 1) (k' := 1) adds_build fun w => adds_build
  | var vid =>
    show Adds _ 1 _ (g.variableById _ vid) _
    unfold Graph.variableById
    split
    · exact .pure (by simp [glen])
    · exact .bind (k := 1) (k' := 0) adds_build fun v => .pure (Nat.le_refl _)
  | placeholder name s =>
    show Adds _ 3 _ (g.placeholder _ _ name s) _
    unfold Graph.placeholder
    refine .bind (k := 2) (k' := 1) (len := glen) ?_ fun v => .bind (k := 0) (k' := 1) (len := fun _ => glen v) ?_ fun w => adds_build
    · unfold Graph.placeholderHint
      split
      · exact .bind (k := 1) (k' := 1) adds_build fun v => .bind (k := 1) (k' := 0) adds_build fun w => .pure (Nat.le_refl _)
      · exact .pure (by simp [glen])
    · unfold Graph.knownShapeNew
      split
      · exact .pure (Nat.le_refl _)
      · exact .skip (by simp)
  | shapeOf x => exact adds_shape
  | fixed op ins => exact adds_build

/-! ## The loop -/

section
variable {O : GradOps Op} {K : Nat}

theorem adds_shapeTensor {g : Graph Op} {x : Nat} : Adds Panic.graphTooLarge 1 g.nodes.length (shapeTensor O g x) glen := by
  unfold shapeTensor
  refine .mono (k := 0 + 1) (.bind adds_access fun n => ?_) (Nat.le_refl _)
  split
  · exact .pure (by simp [glen])
  · exact adds_build

theorem adds_addN {g : Graph Op} {x : Nat} {xs : List Nat} : Adds Panic.graphTooLarge 2 g.nodes.length (addN O g x xs) glen := by
  unfold addN
  split
  · exact .pure (by simp [glen])
  · exact .bind (k := 1) (k' := 1) adds_shapeTensor fun v => adds_build

theorem adds_zerosLike {g : Graph Op} {x : Nat} : Adds Panic.graphTooLarge 2 g.nodes.length (zerosLike O g x) glen :=
  .bind (k := 1) (k' := 1) adds_shapeTensor fun _ => adds_build

theorem adds_scalarOne {g : Graph Op} : Adds Panic.graphTooLarge 3 g.nodes.length (scalarOne O g) glen :=
  .bind (k := 1) (k' := 2) adds_build fun _ => .bind (k := 1) (k' := 1) adds_build fun _ => adds_build

theorem adds_sumAlls {g : Graph Op} {ys : List Nat} : Adds Panic.graphTooLarge ys.length g.nodes.length (sumAlls O g ys) glen := by
  induction ys generalizing g with
  | nil => exact .pure (by simp [glen])
  | cons y ys ih =>
    refine .mono (k := 1 + (ys.length + 0)) (.bind (len := glen) adds_build fun v => .bind (len := glen) ih fun w => .pure (Nat.le_refl _)) (by simp; omega)

/-- What `GPanic` says about a graph that is too large. -/
abbrev full : GPanic := .graph .graphTooLarge

theorem adds_gradient {g : Graph Op} {m : GMap} {k : Nat} : Adds full 2 g.nodes.length (gradient O g m k) glen := by
  unfold gradient
  split
  · exact .skip (by simp)
  · split
    · exact .skip (by simp)
    · exact .pure (by simp [glen])
    · exact .bind (k := 2) (k' := 0) (.lift adds_addN) fun v => .pure (Nat.le_refl _)

theorem adds_pushGrad {m : GMap} {k t n : Nat} : Adds full 0 n (pushGrad m k t) (fun _ => n) := by
  unfold pushGrad
  split
  · exact .skip (by simp)
  · exact .pure (Nat.le_refl _)

theorem adds_pushAll {ps : List (Nat × Nat)} {m : GMap} {n : Nat} : Adds full 0 n (pushAll ps m) (fun _ => n) := by
  induction ps generalizing m with
  | nil => exact .pure (Nat.le_refl _)
  | cons p ps ih => exact .bind (k := 0) (k' := 0) adds_pushGrad fun m' => ih

theorem adds_register {g : Graph Op} {l : List (Incoming × Option Nat)} {s : GMap × List Nat} {n : Nat} : Adds full 0 n (register g l s) (fun _ => n) := by
  induction l generalizing s with
  | nil => exact .pure (Nat.le_refl _)
  | cons p l ih =>
    obtain ⟨i, gx⟩ := p
    obtain ⟨m, heap⟩ := s
    unfold register
    refine .bind (k := 0) (k' := 0) (.lift adds_access) fun nx => ?_
    split
    · exact .skip (by simp)
    · split
      · split
        · exact .bind (k := 0) (k' := 0) adds_pushGrad fun m' => ih
        · exact ih
      · exact ih

theorem adds_visit (hK : ∀ op g y gy, Adds full K g.nodes.length (O.opGrad op g y gy) glen) {s : BpState Op} {y : Nat} :
    Adds full (K + 2) s.g.nodes.length (bpVisit O s y) (fun s' => s'.g.nodes.length) := by
  unfold bpVisit
  refine .mono (k := 2 + (0 + (K + (0 + (0 + 0))))) (.bind (len := glen) adds_gradient fun v => .bind (len := fun _ => glen v) (.lift adds_access) fun n =>
    .bind (len := glen) (hK _ _ _ _) fun w => .bind (len := fun _ => glen w) (.lift adds_access) fun n2 => .bind (len := fun _ => glen w) adds_register fun u => .pure (Nat.le_refl _)) (by omega)

theorem adds_loop (hK : ∀ op g y gy, Adds full K g.nodes.length (O.opGrad op g y gy) glen) {pick : Graph Op → List Nat → Nat} :
    ∀ {fuel : Nat} {s : BpState Op} {r}, bpLoop O pick fuel s = some r → Adds full (fuel * (K + 2)) s.g.nodes.length r (fun s' => s'.g.nodes.length) := by
  intro fuel
  induction fuel with
  | zero => intro s r h; cases h
  | succ fuel ih =>
    intro s r h
    simp only [bpLoop] at h
    split at h
    · cases h; exact .pure (Nat.le_add_right _ _)
    · cases hv : bpVisit O s (pick s.g s.heap) with
      | error p =>
        rw [hv] at h
        cases h
        have := adds_visit hK (s := s) (y := pick s.g s.heap)
        rw [hv] at this
        refine ⟨fun v hv => (by cases hv), fun e => ?_⟩
        have := this.err (by rw [Except.error.inj e])
        rw [Nat.succ_mul]; omega
      | ok s' =>
        rw [hv] at h
        have h1 := (adds_visit hK (s := s) (y := pick s.g s.heap)).ok s' hv
        have h2 := ih h
        refine ⟨fun v hv => ?_, fun e => ?_⟩
        · have := h2.ok v hv; rw [Nat.succ_mul]; omega
        · have := h2.err e; rw [Nat.succ_mul]; omega

theorem adds_extractOne {g : Graph Op} {m : GMap} {x : Nat} : Adds full 2 g.nodes.length (extractOne O g m x) glen := by
  unfold extractOne
  split
  · split
    · exact adds_gradient
    · exact .bind (k := 2) (k' := 0) (.lift adds_zerosLike) fun v => .pure (Nat.le_refl _)
  · exact .bind (k := 2) (k' := 0) (.lift adds_zerosLike) fun v => .pure (Nat.le_refl _)

theorem adds_extractAll {g : Graph Op} {m : GMap} {xs : List Nat} : Adds full (2 * xs.length) g.nodes.length (extractAll O xs g m) glen := by
  induction xs generalizing g m with
  | nil => exact .pure (by simp [glen])
  | cons x xs ih =>
    refine .mono (k := 2 + (2 * xs.length + 0)) (.bind (len := glen) adds_extractOne fun v => .bind (len := glen) ih fun w => .pure (Nat.le_refl _)) (by simp; omega)

/-- More iterations change nothing. -/
theorem bpLoop_mono {pick : Graph Op → List Nat → Nat} : ∀ {fuel fuel' : Nat} {s : BpState Op} {r}, bpLoop O pick fuel s = some r → fuel ≤ fuel' →
    bpLoop O pick fuel' s = some r := by
  intro fuel
  induction fuel with
  | zero => intro fuel' s r h; cases h
  | succ fuel ih =>
    intro fuel' s r h hf
    obtain ⟨fuel', rfl⟩ : ∃ k, fuel' = k + 1 := ⟨fuel' - 1, by omega⟩
    simp only [bpLoop] at h ⊢
    split
    · rename_i he; rw [if_pos he] at h; exact h
    · rename_i he
      rw [if_neg he] at h
      cases hv : bpVisit O s (pick s.g s.heap) with
      | error p => rw [hv] at h; exact h
      | ok s' =>
        rw [hv] at h
        exact ih h (by omega)

end

end Verif.Gradient

namespace Verif.Prog
open Verif Verif.Nd Verif.Graph Verif.Gradient Verif.Spec Verif.Hint

/-! ## The gradient functions -/

/-- How many tensors a gradient expression adds at most. -/
def eCost : EExp → Nat
  | .x | .y | .gy => 0
  | .const _ => 3
  | .app _ e => eCost e + 2
  | .add a b | .sub a b | .mul a b | .div a b => eCost a + eCost b + 4
  | .greater a b => eCost a + eCost b + 1
  | .eluGrad _ a b | .clipGrad _ _ a b => eCost a + eCost b + 2

theorem adds_mk {g : Graph POp} {c : Ctor POp} {k : Nat} (h : ctorCost c ≤ k) : Adds full k g.nodes.length (mk g c) glen := .mono (.lift (adds_construct c)) h

theorem adds_mkShape {g : Graph POp} {x : Nat} : Adds full 1 g.nodes.length (mkShape g x) glen := .lift adds_shape

theorem adds_un {g : Graph POp} {op : EOp} {x : Nat} : Adds full 2 g.nodes.length (mk g (unCtor op x)) glen := adds_mk (by cases op <;> simp [unCtor, ctorCost])

theorem adds_buildE {x y gy : Nat} {e : EExp} {g : Graph POp} : Adds full (eCost e) g.nodes.length (buildE x y gy e g) glen := by
  have two : ∀ {a b : EExp} {k k' : Nat} {c : Nat → Nat → Ctor POp} {g : Graph POp}, (∀ g, Adds full (eCost a) (Graph.nodes g).length (buildE x y gy a g) glen) →
      (∀ g, Adds full (eCost b) (Graph.nodes g).length (buildE x y gy b g) glen) → (∀ u v, ctorCost (c u v) ≤ k) → eCost a + eCost b + k = k' →
      Adds full k' g.nodes.length (do
        let (g1, u) ← buildE x y gy a g
        let (g2, v) ← buildE x y gy b g1
        mk g2 (c u v)) glen := by
    intro a b k k' c g ha hb hc hk
    exact .mono (k := eCost a + (eCost b + k)) (.bind (len := glen) (ha g) fun v => .bind (len := glen) (hb _) fun w => adds_mk (hc _ _)) (by omega)
  induction e generalizing g with
  | x => exact .pure (Nat.le_refl _)
  | y => exact .pure (Nat.le_refl _)
  | gy => exact .pure (Nat.le_refl _)
  | const c => exact adds_mk (Nat.le_refl _)
  | app op e ih => exact .bind (k := eCost e) (k' := 2) (len := glen) ih fun v => adds_un
  | add a b iha ihb => exact two (c := fun u v => .binary .add u v) (fun g => iha) (fun g => ihb) (fun _ _ => Nat.le_refl _) rfl
  | sub a b iha ihb => exact two (c := fun u v => .binary .sub u v) (fun g => iha) (fun g => ihb) (fun _ _ => Nat.le_refl _) rfl
  | mul a b iha ihb => exact two (c := fun u v => .binary .mul u v) (fun g => iha) (fun g => ihb) (fun _ _ => Nat.le_refl _) rfl
  | div a b iha ihb => exact two (c := fun u v => .binary .div u v) (fun g => iha) (fun g => ihb) (fun _ _ => Nat.le_refl _) rfl
  | greater a b iha ihb => exact two (c := fun u v => .plain (.cmp .gt) [inp u, inp v]) (fun g => iha) (fun g => ihb) (fun _ _ => Nat.le_refl _) rfl
  | eluGrad alpha a b iha ihb => exact two (c := fun u v => .like (.eluGrad alpha) [inp u, inp v] v) (fun g => iha) (fun g => ihb) (fun _ _ => Nat.le_refl _) rfl
  | clipGrad lo hi a b iha ihb => exact two (c := fun u v => .like (.clipGrad lo hi) [inp u, inp v] v) (fun g => iha) (fun g => ihb) (fun _ _ => Nat.le_refl _) rfl

/-- How many tensors one step of a gradient function adds at most. -/
def cmdCost : Cmd → Nat
  | .shape _ | .plain _ _ | .nth _ _ | .withBp _ _ _ => 1
  | .like _ _ _ | .un _ _ | .vec _ => 2
  | .scalar _ => 3
  | .bin _ _ _ => 4

theorem adds_cmd {ρ : Ref → Nat} {g : Graph POp} {c : Cmd} : Adds full (cmdCost c) g.nodes.length (c.build ρ g) glen := by
  cases c with
  | shape a => exact adds_mkShape
  | un op a => exact adds_un
  | withBp op as bps => exact .lift adds_build
  | _ => exact adds_mk (Nat.le_refl _)

theorem adds_cmds {xs : List Nat} {y gy : Nat} {cs : List Cmd} {ts : List Nat} {g : Graph POp} : Adds full (cs.map cmdCost).sum g.nodes.length (runCmds xs y gy cs ts g) glen := by
  induction cs generalizing ts g with
  | nil => exact .pure (Nat.le_refl _)
  | cons c cs ih => exact .bind (len := glen) adds_cmd fun v => ih

theorem adds_gradCmds {xs : List Nat} {y gy : Nat} {cs : List Cmd} {out : List (Option Ref)} {g : Graph POp} {k : Nat} (h : (cs.map cmdCost).sum ≤ k) :
    Adds full k g.nodes.length (gradCmds xs y gy cs out g) glen :=
  .mono (.bind (k' := 0) (len := glen) adds_cmds fun _ => .pure (Nat.le_refl _)) h

section
variable {g : Graph POp} {k n : Nat} {f : Graph POp × Nat → Except GPanic (Graph POp × List (Option Nat))}

theorem add_shape {x : Nat} (h : ∀ v, Adds full k (glen v) (f v) glen) : Adds full (k + 1) g.nodes.length (mkShape g x >>= f) glen :=
  .mono (.bind adds_mkShape h) (by omega)

theorem add_un {op : EOp} {x : Nat} (h : ∀ v, Adds full k (glen v) (f v) glen) : Adds full (k + 2) g.nodes.length (mk g (unCtor op x) >>= f) glen :=
  .mono (.bind adds_un h) (by omega)

theorem add_reduce {x s : Nat} (h : ∀ v, Adds full k (glen v) (f v) glen) : Adds full (k + 1) g.nodes.length (mk g (reduceTo x s) >>= f) glen :=
  .mono (.bind (adds_mk (Nat.le_refl _)) h) (by simp [reduceTo, ctorCost]; omega)

theorem add_plain {op : POp} {is : List Incoming} (h : ∀ v, Adds full k (glen v) (f v) glen) : Adds full (k + 1) g.nodes.length (mk g (.plain op is) >>= f) glen :=
  .mono (.bind (adds_mk (Nat.le_refl _)) h) (by simp [ctorCost]; omega)

theorem add_binary {op : POp} {a b : Nat} (h : ∀ v, Adds full k (glen v) (f v) glen) : Adds full (k + 4) g.nodes.length (mk g (.binary op a b) >>= f) glen :=
  .mono (.bind (adds_mk (Nat.le_refl _)) h) (by simp [ctorCost]; omega)

end

theorem eCost_le {op : EOp} {e : EExp} (h : op.grad = some e) : eCost e ≤ 28 := by
  cases op <;> cases h <;> simp [eCost]

theorem adds_gradOf (g : Graph POp) (y gy : Nat) (op : POp) (xs : List Nat) : Adds full 28 g.nodes.length (gradOf g y gy op xs) glen := by
  unfold gradOf
  split
  all_goals first
    | exact .pure (Nat.le_add_right _ _)
    | exact .skip (by simp)
    | exact adds_gradCmds (by simp [cmdCost, meanCmds, softmaxCmds, logSoftmaxCmds, sigmoidCECmds, sparseCECmds, sliceCmds, squeezeCmds, transposeCmds, reshapeCmds, gatherCmds,
        convCmds, poolCmds, dropoutCmds, indexCmds, extremumCmds, reduceExtCmds])
    | skip
  case h_14 =>
    split
    · exact .pure (Nat.le_add_right _ _)
    · rename_i e he
      exact .mono (.bind (k' := 0) (len := glen) adds_buildE fun v => .pure (Nat.le_refl _)) (eCost_le he)
  all_goals
    repeat first
      | refine add_shape fun v => ?_
      | refine add_reduce fun v => ?_
      | refine add_plain fun v => ?_
      | refine add_binary fun v => ?_
      | refine add_un fun v => ?_
    exact .pure (Nat.le_add_right _ _)

theorem adds_opGrad (op : POp) (g : Graph POp) (y gy : Nat) : Adds full 28 g.nodes.length (POp.opGrad op g y gy) glen := by
  unfold POp.opGrad
  exact .mono (k := 0 + 28) (.bind (len := fun _ => g.nodes.length) (.lift adds_access) fun n => adds_gradOf _ _ _ _ _) (by omega)

/-- Only tensors of the core and the sums are visited. -/
theorem log_core {g g0 : Graph POp} {C : Nat → Prop} {X ys sys : List Nat} {G : Prop} (hP : CoreShape g C X) (hs : Summed gradOps.sumAll g ys g0 sys) (hyc : ∀ y ∈ ys, C y)
    {T : List Nat} (hT : ∀ k < g.nodes.length, C k → k ∈ T) (s : BpState POp) (hst : Struct G g0 sys X s) : s.log.length ≤ T.length + ys.length := by
  obtain ⟨C', hI⟩ := hst.inv
  have hsub : s.log ⊆ T ++ sys := by
    intro k hk
    obtain ⟨info, hm, _⟩ := hst.logGrad k hk
    have hr := hst.reached k (by simp [hm])
    obtain ⟨⟨n, hn, _⟩, _⟩ := hI.logIn k hk
    have hlt := (List.getElem?_eq_some_iff.1 hn).1
    rw [List.mem_append]
    by_cases hkg : k < g.nodes.length
    · exact .inl (hT k hkg (reached_core hP hs hyc hr hkg))
    · exact .inr ((hs.fresh k).2 ⟨by omega, hlt⟩)
  have := (List.subperm_of_subset hI.logNodup hsub).length_le
  rw [List.length_append, ← hs.apps.length_eq] at this
  exact this

/-- `grad` adds at most about thirty tensors for each tensor of the core of the graph. -/
theorem grad_adds_core {g : Graph POp} {C : Nat → Prop} {ys xs : List Nat} (hP : CoreShape g C xs) (hyc : ∀ y ∈ ys, C y) {T : List Nat} (hT : ∀ k < g.nodes.length, C k → k ∈ T)
    {pick : Graph POp → List Nat → Nat} (hpick : PicksMax pick) (hne : ys ≠ [])
    (hleaf : ∀ x ∈ xs, IsLeaf g x) {fuel : Nat} {r} (h : grad gradOps pick fuel g ys xs = some r) :
    Adds full (30 * T.length + 31 * ys.length + 2 * xs.length + 33) g.nodes.length r (fun r => r.g.nodes.length) := by
  unfold grad computeGradients at h
  rw [if_neg hne] at h
  cases h0 : sumAlls gradOps g ys with
  | error p =>
    rw [h0] at h
    cases h
    have := (Adds.lift (adds_sumAlls (O := gradOps) (g := g) (ys := ys))).mono (k' := 30 * T.length + 31 * ys.length + 2 * xs.length + 33) (by omega)
    rw [h0] at this
    exact ⟨fun v hv => (by cases hv), fun e => this.err (by cases e; rfl)⟩
  | ok v =>
    obtain ⟨g0, sys⟩ := v
    have c0 : g0.nodes.length ≤ g.nodes.length + ys.length := (adds_sumAlls (O := gradOps)).ok _ h0
    have hs := sumAlls_ok h0
    have hg0 := hs.bpDag hP.bpDag
    have hd := hs.isDiff
    have hylt : ∀ y ∈ sys, y < g0.nodes.length := fun y hy => by
      obtain ⟨n, hn, _⟩ := hd y hy
      exact (List.getElem?_eq_some_iff.1 hn).1
    obtain ⟨m, N, hm, hin, _, huniq⟩ := initMap_ok (xs := xs) hg0 hylt
    rw [h0] at h
    simp only at h
    cases hmap : initMap g0 sys xs fuel with
    | none => rw [hmap] at h; cases h
    | some r' =>
      cases huniq fuel r' hmap
      rw [hmap] at h
      simp only at h
      cases h1 : scalarOne gradOps g0 with
      | error p =>
        rw [h1] at h
        cases h
        have := (Adds.lift (adds_scalarOne (O := gradOps) (g := g0)))
        rw [h1] at this
        exact ⟨fun v hv => (by cases hv), fun e => by have := this.err (by cases e; rfl); omega⟩
      | ok v =>
        obtain ⟨g1, one⟩ := v
        have c1 : g1.nodes.length ≤ g0.nodes.length + 3 := (adds_scalarOne (O := gradOps)).ok _ h1
        obtain ⟨hgr1, n1, hn1, _⟩ := scalarOne_ok h1
        have hz : (sys.map (fun y => (y, one))).map Prod.fst = sys := map_fst
        obtain ⟨m', hm'⟩ := pushAll_total (ps := sys.map (fun y => (y, one))) (m := m) (by rw [hz]; exact hin)
        have hst := start_struct (G := True) hgr1 hm (by rw [hz]; exact hs.nodup) (by rw [hz]; exact hd) (by rw [hz]; exact hin)
          (by rw [hz]; exact initMap_reached hd hmap) (fun p hp => by
            obtain ⟨y, hy, rfl⟩ := List.mem_map.1 hp
            exact (List.getElem?_eq_some_iff.1 hn1).1) hm'
        rw [hz] at hst
        have hsame := loop_same hP hs hyc hleaf (G := True) (fun _ => guarded_given hP hs hyc hleaf) hg0 hpick (T.length + ys.length + 1) _ hst (scalarOne_hints (summed_hints hP hs) h1) ((scalarOne_builds (W := False) h1).bpDag hg0)
        obtain ⟨e, he⟩ : ∃ e, bpLoop gradOps pick (T.length + ys.length + 1) ⟨g1, m', sys, []⟩ = some e := by
          rw [hsame.1]
          rcases bpLoop_bounded (log_core hP hs hyc hT) (guarded_wf hP hs) (fun _ => guarded_given hP hs hyc hleaf) hg0 hpick hst (fuel := T.length + ys.length + 1) (by simp) with ⟨s, h, _⟩ | ⟨p, h, _⟩
          · exact ⟨_, h⟩
          · exact ⟨_, h⟩
        rw [h1] at h
        simp only [Gradient.lift, hm', bind, Except.bind] at h
        cases hl : bpLoop gradOps pick fuel ⟨g1, m', sys, []⟩ with
        | none => rw [hl] at h; cases h
        | some r2 =>
          have : r2 = e := by
            have a := bpLoop_mono hl (Nat.le_max_left fuel (T.length + ys.length + 1))
            have b := bpLoop_mono he (Nat.le_max_right fuel (T.length + ys.length + 1))
            rw [a] at b; exact Option.some.inj b
          subst this
          have c2 := adds_loop adds_opGrad he
          rw [hl] at h
          cases r2 with
          | error p =>
            cases h
            exact ⟨fun v hv => (by cases hv), fun e => by have := c2.err (by rw [← Except.error.inj e]); simp only at this; omega⟩
          | ok s =>
            have c3 := c2.ok s rfl
            simp only at h c3
            have c4 := adds_extractAll (O := gradOps) (g := s.g) (m := s.m) (xs := xs)
            cases hx : extractAll gradOps xs s.g s.m with
            | error p =>
              rw [hx] at h c4
              cases h
              exact ⟨fun v hv => (by cases hv), fun e => by have := c4.err (by rw [← Except.error.inj e]); omega⟩
            | ok v =>
              obtain ⟨g', ts⟩ := v
              rw [hx] at h c4
              cases h
              have := c4.ok _ rfl
              simp only [glen] at this
              refine .pure ?_
              simp only
              omega

/-- `grad` adds at most about thirty tensors for each tensor of the graph. -/
theorem grad_adds {g : Graph POp} {ys xs : List Nat} (hP : ProgShape g xs) {pick : Graph POp → List Nat → Nat} (hpick : PicksMax pick) (hne : ys ≠ [])
    (hleaf : ∀ x ∈ xs, IsLeaf g x) {fuel : Nat} {r} (h : grad gradOps pick fuel g ys xs = some r) :
    Adds full (31 * (g.nodes.length + ys.length) + 2 * xs.length + 33) g.nodes.length r (fun r => r.g.nodes.length) :=
  (grad_adds_core hP (fun _ _ => trivial) (T := List.range g.nodes.length) (fun k hk _ => List.mem_range.2 hk) hpick hne hleaf h).mono (by simp; omega)

/-- Small graphs have room for their gradients. -/
theorem grad_returns_small {g : Graph POp} {ys xs : List Nat} (hP : ProgShape g xs) {pick : Graph POp → List Nat → Nat} (hpick : PicksMax pick) (hne : ys ≠ [])
    (hy : ∀ y ∈ ys, y < g.nodes.length) (hleaf : ∀ x ∈ xs, IsLeaf g x) :
    ∃ N, ∀ fuel, N ≤ fuel → (∃ r, grad gradOps pick fuel g ys xs = some (.ok r) ∧ r.grads.length = xs.length ∧ r.g.nodes.length ≤ 32 * (g.nodes.length + ys.length + xs.length + 1)) ∨
      grad gradOps pick fuel g ys xs = some (.error full) ∧ numNodesCritical < 32 * (g.nodes.length + ys.length + xs.length + 1) := by
  obtain ⟨N, hN⟩ := grad_returns hP hpick hne hy hleaf
  have : 0 < ys.length := List.length_pos_iff.2 hne
  refine ⟨N, fun fuel hf => ?_⟩
  rcases hN fuel hf with ⟨r, h1, h2⟩ | h1
  · have := (grad_adds hP hpick hne hleaf h1).ok r rfl
    exact .inl ⟨r, h1, h2, by omega⟩
  · have := (grad_adds hP hpick hne hleaf h1).err rfl
    exact .inr ⟨h1, by omega⟩

theorem ctorCost_le (s : Stmt) : ctorCost s.ctor ≤ 4 := by
  cases s with
  | un op x => cases op <;> simp [Stmt.ctor, unCtor, ctorCost]
  | _ => simp [Stmt.ctor, ctorCost]

/-- A call needs at most three tensors for shapes besides its own. -/
theorem adds_program {l : List Stmt} {g : Graph POp} : Adds Panic.graphTooLarge (4 * l.length) g.nodes.length (constructAll hintOps g (l.map Stmt.ctor)) glen := by
  induction l generalizing g with
  | nil => exact .pure (Nat.le_refl _)
  | cons s l ih =>
    exact .mono (k := 4 + (4 * l.length + 0)) (.bind (len := glen) ((adds_construct _).mono (ctorCost_le s)) fun v => .bind (len := glen) ih fun w => .pure (Nat.le_refl _))
      (by simp; omega)

end Verif.Prog
