import Verif.Lemmas.OptimizerState
/-! # Property theorems about optimizer state: C46 -/

namespace Verif.Props
open Verif Verif.Spec Verif.OptState
variable {A : Type}

/-- The environment of the examples: two registered parameters. -/
def exOptEnv : VarEnv Nat :=
  ((VarEnv.new.register [] ['w'] 5).1.register [] ['b'] 6).1

theorem exOptEnv_hist : VarHist [.register [] ['w'] 5, .register [] ['b'] 6] exOptEnv :=
  VarHist.register [] ['b'] 6 (VarHist.register [] ['w'] 5 VarHist.new)

/-- **C46** Creating an Adam optimizer (for the first time or again on the same namespace) gives every parameter in its list state of its
own that starts fresh: new arrays, zeros of the shape of the parameter for both moments and one for the step counter; existing arrays
keep their values. -/
theorem C46_adam_fresh_state (zerosLike : A → A) (one : A) (ns : Str) (env env' : VarEnv A) (vids : List Nat)
    (hnew : adamNew zerosLike one ns env vids = .ok env') :
    (∀ (k : Nat) (a : A), env.getById k = some a → env'.getById k = some a) ∧
    ∀ vid ∈ vids, ∃ m v t a, adamState env' ns vid = some (m, v, t) ∧ env'.getById vid = some a ∧
      env'.getById m = some (zerosLike a) ∧ env'.getById v = some (zerosLike a) ∧ env'.getById t = some one ∧
      env.getById m = none ∧ env.getById v = none ∧ env.getById t = none := by
  refine ⟨?_, ?_⟩
  · intro k a ha
    obtain ⟨l, hl⟩ := adamNew_arrays hnew
    unfold VarEnv.getById at ha ⊢
    have hlt : k < env.arrays.length := by
      by_contra hc; rw [List.getElem?_eq_none (by omega)] at ha; cases ha
    rw [hl, List.getElem?_append_left hlt, ha]
  · intro vid hv
    obtain ⟨m, v, t, a, h1, h2, h3, h4, h5, h6, h7, h8⟩ := adamNew_state hnew hv
    exact ⟨m, v, t, a, h1, h2, h3, h4, h5, List.getElem?_eq_none h6, List.getElem?_eq_none h7, List.getElem?_eq_none h8⟩

example : ∃ env', adamNew (fun _ => 0) 1 ['a'] exOptEnv [0, 1] = .ok env' ∧ env'.arrays = [5, 6, 0, 0, 1, 0, 0, 1] :=
  ⟨_, rfl, rfl⟩

/-- **C46** The same for `MomentumSGD` and `AdaGrad`, which keep one state array per parameter. -/
theorem C46_single_fresh_state (zerosLike : A → A) (ns : Str) (env env' : VarEnv A) (vids : List Nat)
    (hnew : singleNew zerosLike ns env vids = .ok env') :
    (∀ (k : Nat) (a : A), env.getById k = some a → env'.getById k = some a) ∧
    ∀ vid ∈ vids, ∃ s a, singleState env' ns vid = some s ∧ env'.getById vid = some a ∧
      env'.getById s = some (zerosLike a) ∧ env.getById s = none := by
  refine ⟨?_, ?_⟩
  · intro k a ha
    obtain ⟨l, hl⟩ := singleNew_arrays hnew
    unfold VarEnv.getById at ha ⊢
    have hlt : k < env.arrays.length := by
      by_contra hc; rw [List.getElem?_eq_none (by omega)] at ha; cases ha
    rw [hl, List.getElem?_append_left hlt, ha]
  · intro vid hv
    obtain ⟨s, a, h1, h2, h3, h4⟩ := singleNew_state hnew hv
    exact ⟨s, a, h1, h2, h3, List.getElem?_eq_none h4⟩

example : ∃ env', singleNew (fun _ => 0) ['a'] exOptEnv [0, 1] = .ok env' ∧ env'.arrays = [5, 6, 0, 0] :=
  ⟨_, rfl, rfl⟩

/-- **C46** Creating an optimizer succeeds for any list of registered parameters, and panics on an unregistered one. -/
theorem C46_creation_succeeds (zerosLike : A → A) (one : A) (ns : Str) (env : VarEnv A) (vids : List Nat)
    (hv : ∀ vid ∈ vids, env.getById vid ≠ none) :
    (∃ env', adamNew zerosLike one ns env vids = .ok env') ∧ ∃ env', singleNew zerosLike ns env vids = .ok env' := by
  constructor
  · induction vids generalizing env with
    | nil => exact ⟨env, rfl⟩
    | cons vid vids ih =>
      obtain ⟨a, ha⟩ := Option.ne_none_iff_exists'.1 (hv vid (by simp))
      unfold adamNew
      simp only [ha]
      apply ih
      intro w hw
      have := hv w (List.mem_cons_of_mem _ hw)
      unfold VarEnv.getById at this ⊢
      simp only [register_arrays]
      rw [Ne, List.getElem?_eq_none_iff] at this ⊢
      simp; omega
  · induction vids generalizing env with
    | nil => exact ⟨env, rfl⟩
    | cons vid vids ih =>
      obtain ⟨a, ha⟩ := Option.ne_none_iff_exists'.1 (hv vid (by simp))
      unfold singleNew
      simp only [ha]
      apply ih
      intro w hw
      have := hv w (List.mem_cons_of_mem _ hw)
      unfold VarEnv.getById at this ⊢
      simp only [register_arrays]
      rw [Ne, List.getElem?_eq_none_iff] at this ⊢
      simp; omega

example : ∀ vid ∈ [0, 1, 0], exOptEnv.getById vid ≠ none := by decide

/-- **C46** State found by an optimizer for one parameter is never state found for another parameter, nor state found by an optimizer
with another namespace: the ids are all different. The three arrays of one parameter are different as well. Adam never shares state with an
optimizer that keeps one array, even in the same namespace. -/
theorem C46_state_not_shared (h : List (VarAction A)) (env : VarEnv A) (H : VarHist h env) (ns ns' : Str) (vid vid' : Nat) :
    (∀ m v t, adamState env ns vid = some (m, v, t) → m ≠ v ∧ m ≠ t ∧ v ≠ t) ∧
    (∀ m v t m' v' t', adamState env ns vid = some (m, v, t) → adamState env ns' vid' = some (m', v', t') →
      (ns, vid) ≠ (ns', vid') → ∀ x ∈ [m, v, t], x ∉ [m', v', t']) ∧
    (∀ s s', singleState env ns vid = some s → singleState env ns' vid' = some s' → (ns, vid) ≠ (ns', vid') → s ≠ s') ∧
    (∀ m v t s, adamState env ns vid = some (m, v, t) → singleState env ns' vid' = some s → s ∉ [m, v, t]) := by
  have key : ∀ m v t, adamState env ns vid = some (m, v, t) → ∀ x ∈ [m, v, t], ∃ s, IsAdamName s vid ∧
      env.names.get ⟨ns, s⟩ = some x := by
    intro m v t hs x hx
    obtain ⟨h1, h2, h3⟩ := adamState_some hs
    simp only [List.mem_cons, List.not_mem_nil, or_false] at hx
    rcases hx with rfl | rfl | rfl
    · exact ⟨_, .inl rfl, h1⟩
    · exact ⟨_, .inr (.inl rfl), h2⟩
    · exact ⟨_, .inr (.inr rfl), h3⟩
  have key' : ∀ m v t, adamState env ns' vid' = some (m, v, t) → ∀ x ∈ [m, v, t], ∃ s, IsAdamName s vid' ∧
      env.names.get ⟨ns', s⟩ = some x := by
    intro m v t hs x hx
    obtain ⟨h1, h2, h3⟩ := adamState_some hs
    simp only [List.mem_cons, List.not_mem_nil, or_false] at hx
    rcases hx with rfl | rfl | rfl
    · exact ⟨_, .inl rfl, h1⟩
    · exact ⟨_, .inr (.inl rfl), h2⟩
    · exact ⟨_, .inr (.inr rfl), h3⟩
  refine ⟨?_, ?_, ?_, ?_⟩
  · intro m v t hs
    obtain ⟨h1, h2, h3⟩ := adamState_some hs
    refine ⟨?_, ?_, ?_⟩
    · rintro rfl; exact nameM_ne_nameV _ _ (name_of_id H h1 h2).2
    · rintro rfl; exact nameM_ne_nameT _ _ (name_of_id H h1 h3).2
    · rintro rfl; exact nameV_ne_nameT _ _ (name_of_id H h2 h3).2
  · intro m v t m' v' t' hs hs' hne x hx hx'
    obtain ⟨s, n1, g1⟩ := key m v t hs x hx
    obtain ⟨s', n2, g2⟩ := key' m' v' t' hs' x hx'
    obtain ⟨e1, e2⟩ := name_of_id H g1 g2
    subst e2
    exact hne (by rw [e1, isAdamName_inj n1 n2])
  · rintro s s' h1 h2 hne rfl
    obtain ⟨e1, e2⟩ := name_of_id H h1 h2
    exact hne (by rw [e1, decimal_inj e2])
  · intro m v t s hs h2 hx
    obtain ⟨s1, n1, g1⟩ := key m v t hs s hx
    obtain ⟨_, e2⟩ := name_of_id H g1 h2
    subst e2
    exact decimal_not_adam _ _ n1

example : ∃ (h : List (VarAction Nat)) (env : VarEnv Nat), VarHist h env ∧
    adamState env ['a'] 0 = some (2, 3, 4) ∧ adamState env ['a'] 1 = some (5, 6, 7) := by
  obtain ⟨env', h1, h2, h3⟩ : ∃ env', adamNew (fun _ => 0) 1 ['a'] exOptEnv [0, 1] = .ok env' ∧
    adamState env' ['a'] 0 = some (2, 3, 4) ∧ adamState env' ['a'] 1 = some (5, 6, 7) := ⟨_, rfl, by decide, by decide⟩
  obtain ⟨h', H'⟩ := adamNew_hist exOptEnv_hist h1
  exact ⟨h', env', H', h2, h3⟩

/-- **C46** Creating an optimizer leaves the state of optimizers with other namespaces alone: the same arrays are found, with the same
values (for Adam and for the optimizers with one state array). -/
theorem C46_namespaces_independent (zerosLike : A → A) (one : A) (ns ns' : Str) (hne : ns' ≠ ns) (env env' : VarEnv A)
    (vids : List Nat)
    (hnew : adamNew zerosLike one ns env vids = .ok env' ∨ singleNew zerosLike ns env vids = .ok env') (vid : Nat) :
    adamState env' ns' vid = adamState env ns' vid ∧ singleState env' ns' vid = singleState env ns' vid ∧
    ∀ (k : Nat) (a : A), env.getById k = some a → env'.getById k = some a := by
  have hget : ∀ s, env'.names.get ⟨ns', s⟩ = env.names.get ⟨ns', s⟩ := by
    intro s
    rcases hnew with hn | hn
    · exact adamNew_get hn _ (fun e => absurd e hne)
    · exact singleNew_get hn _ (fun e => absurd e hne)
  refine ⟨by simp only [adamState, hget], by simp only [singleState, hget], ?_⟩
  rcases hnew with hn | hn
  · exact (C46_adam_fresh_state _ _ _ _ _ _ hn).1
  · exact (C46_single_fresh_state _ _ _ _ _ hn).1

example : ∃ env1 env2, adamNew (fun _ => 0) 1 ['a'] exOptEnv [0] = .ok env1 ∧ singleNew (fun _ => 0) ['b'] env1 [0] = .ok env2 ∧
    adamState env2 ['a'] 0 = some (2, 3, 4) ∧ singleState env2 ['b'] 0 = some 5 := ⟨_, _, rfl, rfl, by decide, by decide⟩

/-- Outside the claim, recorded as a warning: a `MomentumSGD` and an `AdaGrad` created on the *same* namespace use the same array, so
creating the second one resets the state of the first. -/
theorem C46_same_namespace_shares :
    ∃ env1 env2 : VarEnv Nat, singleNew (fun _ => 0) ['s'] exOptEnv [0] = .ok env1 ∧
      singleNew (fun _ => 0) ['s'] env1 [0] = .ok env2 ∧ singleState env1 ['s'] 0 = some 2 ∧ singleState env2 ['s'] 0 = some 3 :=
  ⟨_, _, rfl, rfl, by decide, by decide⟩

end Verif.Props
