import Verif.Model.OptimizerState
import Verif.Lemmas.Variables
import Std.Data.String.ToNat
/-! # Helper lemmas about the state arrays of the optimizers -/

namespace Verif.OptState
open Verif Verif.Spec
variable {A : Type}

theorem decimal_inj {m n : Nat} (h : decimal m = decimal n) : m = n :=
  Nat.repr_injective (String.toList_injective h)

theorem nameM_inj {m n : Nat} (h : nameM m = nameM n) : m = n :=
  decimal_inj (List.append_cancel_right h)
theorem nameV_inj {m n : Nat} (h : nameV m = nameV n) : m = n :=
  decimal_inj (List.append_cancel_right h)
theorem nameT_inj {m n : Nat} (h : nameT m = nameT n) : m = n :=
  decimal_inj (List.append_cancel_right h)

theorem snoc_ne {a b : Str} {x y : Char} (hxy : x ≠ y) : a ++ [x] ≠ b ++ [y] := by
  intro h
  have := (List.append_inj' h rfl).2
  simp at this; exact hxy this

theorem nameM_ne_nameV (m n : Nat) : nameM m ≠ nameV n := snoc_ne (by decide)
theorem nameM_ne_nameT (m n : Nat) : nameM m ≠ nameT n := snoc_ne (by decide)
theorem nameV_ne_nameT (m n : Nat) : nameV m ≠ nameT n := snoc_ne (by decide)

theorem decimal_ne_snoc (m : Nat) (b : Str) (x : Char) (hx : x.isDigit = false) : decimal m ≠ b ++ [x] := by
  intro h
  have hm : x ∈ decimal m := by rw [h]; simp
  unfold decimal at hm
  rw [Nat.toList_repr] at hm
  have := Nat.isDigit_of_mem_toDigits (by omega) (by omega) hm
  rw [hx] at this; cases this

/-- The names under which Adam keeps state for a variable. -/
def IsAdamName (s : Str) (vid : Nat) : Prop := s = nameM vid ∨ s = nameV vid ∨ s = nameT vid

theorem isAdamName_inj {s : Str} {v w : Nat} (h1 : IsAdamName s v) (h2 : IsAdamName s w) : v = w := by
  rcases h1 with rfl | rfl | rfl <;> rcases h2 with h | h | h
  · exact nameM_inj h
  · exact absurd h (nameM_ne_nameV _ _)
  · exact absurd h (nameM_ne_nameT _ _)
  · exact absurd h.symm (nameM_ne_nameV _ _)
  · exact nameV_inj h
  · exact absurd h (nameV_ne_nameT _ _)
  · exact absurd h.symm (nameM_ne_nameT _ _)
  · exact absurd h.symm (nameV_ne_nameT _ _)
  · exact nameT_inj h

theorem decimal_not_adam (v w : Nat) : ¬ IsAdamName (decimal v) w := by
  rintro (h | h | h)
  · exact decimal_ne_snoc v _ 'm' (by decide) h
  · exact decimal_ne_snoc v _ 'v' (by decide) h
  · exact decimal_ne_snoc v _ 't' (by decide) h

theorem register_arrays (env : VarEnv A) (ns name : Str) (a : A) :
    (env.register ns name a).1.arrays = env.arrays ++ [a] := rfl

theorem register_get (env : VarEnv A) (ns name : Str) (a : A) (k : FullName) :
    (env.register ns name a).1.names.get k = if (⟨ns, name⟩ : FullName) = k then some env.arrays.length else env.names.get k :=
  HMap.get_insert _ _ _ _

theorem adamNew_cons {z : A → A} {one : A} {ns : Str} {env env' : VarEnv A} {vid : Nat} {vids : List Nat}
    (h : adamNew z one ns env (vid :: vids) = .ok env') :
    ∃ a, env.getById vid = some a ∧
      adamNew z one ns ((((env.register ns (nameM vid) (z a)).1.register ns (nameV vid) (z a)).1).register ns (nameT vid) one).1
        vids = .ok env' := by
  unfold adamNew at h
  cases hg : env.getById vid with
  | none => simp [hg] at h
  | some a => simp only [hg] at h; exact ⟨a, rfl, h⟩

theorem adamNew_arrays {z : A → A} {one : A} {ns : Str} {env env' : VarEnv A} {vids : List Nat}
    (h : adamNew z one ns env vids = .ok env') : ∃ l, env'.arrays = env.arrays ++ l := by
  induction vids generalizing env with
  | nil => cases h; exact ⟨[], by simp⟩
  | cons vid vids ih =>
    obtain ⟨a, _, h1⟩ := adamNew_cons h
    obtain ⟨l, hl⟩ := ih h1
    exact ⟨[z a] ++ ([z a] ++ ([one] ++ l)), by rw [hl]; simp only [register_arrays, List.append_assoc]⟩

theorem adamNew_get {z : A → A} {one : A} {ns : Str} {env env' : VarEnv A} {vids : List Nat}
    (h : adamNew z one ns env vids = .ok env') (k : FullName)
    (hk : k.ns = ns → ∀ vid ∈ vids, ¬ IsAdamName k.name vid) : env'.names.get k = env.names.get k := by
  induction vids generalizing env with
  | nil => cases h; rfl
  | cons vid vids ih =>
    obtain ⟨a, _, h1⟩ := adamNew_cons h
    rw [ih h1 (fun hn v hv => hk hn v (List.mem_cons_of_mem _ hv))]
    have key : ∀ s, IsAdamName s vid → (⟨ns, s⟩ : FullName) ≠ k := by
      rintro s hs rfl
      exact hk rfl vid (by simp) hs
    rw [register_get, register_get, register_get, if_neg (key _ (.inr (.inr rfl))), if_neg (key _ (.inr (.inl rfl))),
      if_neg (key _ (.inl rfl))]

theorem adamNew_hist {z : A → A} {one : A} {ns : Str} {env env' : VarEnv A} {vids : List Nat}
    {h : List (VarAction A)} (H : VarHist h env) (hn : adamNew z one ns env vids = .ok env') : ∃ h', VarHist h' env' := by
  induction vids generalizing env h with
  | nil => cases hn; exact ⟨h, H⟩
  | cons vid vids ih =>
    obtain ⟨a, _, h1⟩ := adamNew_cons hn
    exact ih (VarHist.register _ _ _ (VarHist.register _ _ _ (VarHist.register _ _ _ H))) h1

/-- The state of every variable in the list is fresh. -/
theorem adamNew_state {z : A → A} {one : A} {ns : Str} {env env' : VarEnv A} {vids : List Nat}
    (h : adamNew z one ns env vids = .ok env') {vid : Nat} (hv : vid ∈ vids) :
    ∃ m v t a, adamState env' ns vid = some (m, v, t) ∧ env'.getById vid = some a ∧
      env'.getById m = some (z a) ∧ env'.getById v = some (z a) ∧ env'.getById t = some one ∧
      env.arrays.length ≤ m ∧ env.arrays.length ≤ v ∧ env.arrays.length ≤ t := by
  induction vids generalizing env with
  | nil => cases hv
  | cons vid0 vids ih =>
    obtain ⟨a, ha, h1⟩ := adamNew_cons h
    by_cases hin : vid ∈ vids
    · obtain ⟨m, v, t, b, h2, h3, h4, h5, h6, h7, h8, h9⟩ := ih h1 hin
      simp only [register_arrays, List.length_append, List.length_singleton] at h7 h8 h9
      exact ⟨m, v, t, b, h2, h3, h4, h5, h6, by omega, by omega, by omega⟩
    · have hv0 : vid = vid0 := by
        rcases List.mem_cons.1 hv with h2 | h2
        · exact h2
        · exact absurd h2 hin
      subst hv0
      obtain ⟨l, hl⟩ := adamNew_arrays h1
      simp only [register_arrays] at hl
      have hget : ∀ s, IsAdamName s vid → env'.names.get ⟨ns, s⟩ =
          ((((env.register ns (nameM vid) (z a)).1.register ns (nameV vid) (z a)).1).register ns (nameT vid) one).1.names.get
            ⟨ns, s⟩ := by
        intro s hs
        refine adamNew_get h1 ⟨ns, s⟩ ?_
        intro _ w hw hs'
        exact hin (isAdamName_inj hs hs' ▸ hw)
      have gm := hget _ (.inl rfl)
      have gv := hget _ (.inr (.inl rfl))
      have gt := hget _ (.inr (.inr rfl))
      have neMV : (⟨ns, nameV vid⟩ : FullName) ≠ ⟨ns, nameM vid⟩ := fun e => nameM_ne_nameV _ _ (FullName.mk.inj e).2.symm
      have neMT : (⟨ns, nameT vid⟩ : FullName) ≠ ⟨ns, nameM vid⟩ := fun e => nameM_ne_nameT _ _ (FullName.mk.inj e).2.symm
      have neVT : (⟨ns, nameT vid⟩ : FullName) ≠ ⟨ns, nameV vid⟩ := fun e => nameV_ne_nameT _ _ (FullName.mk.inj e).2.symm
      rw [register_get, register_get, register_get, if_neg neMT, if_neg neMV, if_pos rfl] at gm
      rw [register_get, register_get, if_neg neVT, if_pos rfl] at gv
      rw [register_get, if_pos rfl] at gt
      simp only [register_arrays] at gv gt
      have hvid : vid < env.arrays.length := by
        by_contra hc
        unfold VarEnv.getById at ha
        rw [List.getElem?_eq_none (by omega)] at ha; cases ha
      refine ⟨_, _, _, a, by unfold adamState; rw [gm, gv, gt], ?_, ?_, ?_, ?_, Nat.le_refl _, ?_, ?_⟩
      · unfold VarEnv.getById at ha ⊢
        rw [hl]; simp only [List.append_assoc]
        rw [List.getElem?_append_left hvid, ha]
      · unfold VarEnv.getById
        rw [hl]; simp
      · unfold VarEnv.getById
        rw [hl]
        simp only [List.append_assoc]
        rw [List.getElem?_append_right (by simp)]
        simp
      · unfold VarEnv.getById
        rw [hl]
        simp only [List.append_assoc]
        rw [List.getElem?_append_right (by simp)]
        simp [Nat.add_assoc]
      · simp
      · simp

theorem singleNew_cons {z : A → A} {ns : Str} {env env' : VarEnv A} {vid : Nat} {vids : List Nat}
    (h : singleNew z ns env (vid :: vids) = .ok env') :
    ∃ a, env.getById vid = some a ∧ singleNew z ns (env.register ns (decimal vid) (z a)).1 vids = .ok env' := by
  unfold singleNew at h
  cases hg : env.getById vid with
  | none => simp [hg] at h
  | some a => simp only [hg] at h; exact ⟨a, rfl, h⟩

theorem singleNew_arrays {z : A → A} {ns : Str} {env env' : VarEnv A} {vids : List Nat}
    (h : singleNew z ns env vids = .ok env') : ∃ l, env'.arrays = env.arrays ++ l := by
  induction vids generalizing env with
  | nil => cases h; exact ⟨[], by simp⟩
  | cons vid vids ih =>
    obtain ⟨a, _, h1⟩ := singleNew_cons h
    obtain ⟨l, hl⟩ := ih h1
    exact ⟨[z a] ++ l, by rw [hl]; simp only [register_arrays, List.append_assoc]⟩

theorem singleNew_get {z : A → A} {ns : Str} {env env' : VarEnv A} {vids : List Nat}
    (h : singleNew z ns env vids = .ok env') (k : FullName)
    (hk : k.ns = ns → ∀ vid ∈ vids, k.name ≠ decimal vid) : env'.names.get k = env.names.get k := by
  induction vids generalizing env with
  | nil => cases h; rfl
  | cons vid vids ih =>
    obtain ⟨a, _, h1⟩ := singleNew_cons h
    rw [ih h1 (fun hn v hv => hk hn v (List.mem_cons_of_mem _ hv))]
    have key : (⟨ns, decimal vid⟩ : FullName) ≠ k := by
      rintro rfl
      exact hk rfl vid (by simp) rfl
    rw [register_get, if_neg key]

theorem singleNew_hist {z : A → A} {ns : Str} {env env' : VarEnv A} {vids : List Nat}
    {h : List (VarAction A)} (H : VarHist h env) (hn : singleNew z ns env vids = .ok env') : ∃ h', VarHist h' env' := by
  induction vids generalizing env h with
  | nil => cases hn; exact ⟨h, H⟩
  | cons vid vids ih =>
    obtain ⟨a, _, h1⟩ := singleNew_cons hn
    exact ih (VarHist.register _ _ _ H) h1

theorem singleNew_state {z : A → A} {ns : Str} {env env' : VarEnv A} {vids : List Nat}
    (h : singleNew z ns env vids = .ok env') {vid : Nat} (hv : vid ∈ vids) :
    ∃ s a, singleState env' ns vid = some s ∧ env'.getById vid = some a ∧
      env'.getById s = some (z a) ∧ env.arrays.length ≤ s := by
  induction vids generalizing env with
  | nil => cases hv
  | cons vid0 vids ih =>
    obtain ⟨a, ha, h1⟩ := singleNew_cons h
    by_cases hin : vid ∈ vids
    · obtain ⟨s, b, h2, h3, h4, h5⟩ := ih h1 hin
      simp only [register_arrays, List.length_append, List.length_singleton] at h5
      exact ⟨s, b, h2, h3, h4, by omega⟩
    · have hv0 : vid = vid0 := by
        rcases List.mem_cons.1 hv with h2 | h2
        · exact h2
        · exact absurd h2 hin
      subst hv0
      obtain ⟨l, hl⟩ := singleNew_arrays h1
      simp only [register_arrays] at hl
      have hget := singleNew_get h1 ⟨ns, decimal vid⟩ (by
        intro _ w hw hs'
        exact hin (decimal_inj hs' ▸ hw))
      rw [register_get, if_pos rfl] at hget
      have hvid : vid < env.arrays.length := by
        by_contra hc
        unfold VarEnv.getById at ha
        rw [List.getElem?_eq_none (by omega)] at ha; cases ha
      refine ⟨_, a, hget, ?_, ?_, Nat.le_refl _⟩
      · unfold VarEnv.getById at ha ⊢
        rw [hl]; simp only [List.append_assoc]
        rw [List.getElem?_append_left hvid, ha]
      · unfold VarEnv.getById
        rw [hl]; simp

theorem adamState_some {env : VarEnv A} {ns : Str} {vid m v t : Nat} (h : adamState env ns vid = some (m, v, t)) :
    env.names.get ⟨ns, nameM vid⟩ = some m ∧ env.names.get ⟨ns, nameV vid⟩ = some v ∧
      env.names.get ⟨ns, nameT vid⟩ = some t := by
  unfold adamState at h
  split at h
  · rename_i a b c h1 h2 h3; cases h; exact ⟨h1, h2, h3⟩
  · cases h

/-- In an environment with a history, an id belongs to one name only. -/
theorem name_of_id {h : List (VarAction A)} {env : VarEnv A} (H : VarHist h env) {ns ns' s s' : Str} {k : Nat}
    (h1 : env.names.get ⟨ns, s⟩ = some k) (h2 : env.names.get ⟨ns', s'⟩ = some k) : ns = ns' ∧ s = s' := by
  have I := VarHist.inv H
  exact isLatest_inj ((I.names _ _ _).1 h1) ((I.names _ _ _).1 h2)

end Verif.OptState
