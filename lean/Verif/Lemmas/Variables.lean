import Verif.Spec.Variables
import Mathlib.Data.List.Perm.Lattice
import Mathlib.Data.List.Nodup
/-! # Helper lemmas about the variable environment -/

namespace Verif
open Verif.Spec

namespace HMap
variable {K : Type} [DecidableEq K]

/-- A hash map has no two entries with the same key. -/
def Ok (m : HMap K) : Prop := (m.map (·.1)).Nodup

theorem get_nil (k : K) : HMap.get ([] : HMap K) k = none := rfl

theorem get_cons (e : K × Nat) (m : HMap K) (k : K) :
    HMap.get (e :: m) k = if e.1 = k then some e.2 else HMap.get m k := by
  unfold HMap.get
  by_cases h : e.1 = k <;> simp [h]

theorem get_filter_ne (m : HMap K) (k k' : K) :
    HMap.get (m.filter (fun e => e.1 != k)) k' = if k' = k then none else HMap.get m k' := by
  induction m with
  | nil => simp [get_nil]
  | cons e m ih =>
    by_cases h : e.1 = k
    · have h0 : (e.1 != k) = false := by simp [h]
      rw [List.filter_cons_of_neg (by simp [h0]), ih, get_cons]
      by_cases h2 : k' = k
      · simp [h2]
      · simp [h2, h, Ne.symm h2]
    · have h0 : (e.1 != k) = true := by simp [h]
      rw [List.filter_cons_of_pos (by simp [h0]), get_cons, ih, get_cons]
      by_cases h2 : k' = k
      · subst h2; simp [h]
      · simp [h2]

theorem get_insert (m : HMap K) (k k' : K) (v : Nat) :
    (m.insert k v).get k' = if k = k' then some v else m.get k' := by
  unfold HMap.insert
  rw [get_cons, get_filter_ne]
  by_cases h : k = k'
  · simp [h]
  · simp [h, Ne.symm h]

omit [DecidableEq K] in
theorem ok_nil : Ok ([] : HMap K) := List.nodup_nil

theorem ok_insert {m : HMap K} (h : Ok m) (k : K) (v : Nat) : Ok (m.insert k v) := by
  unfold Ok HMap.insert
  rw [List.map_cons, List.nodup_cons]
  refine ⟨?_, ?_⟩
  · intro hm
    obtain ⟨e, he, hk⟩ := List.mem_map.1 hm
    have := (List.mem_filter.1 he).2
    simp [hk] at this
  · exact List.Nodup.sublist (List.filter_sublist.map _) h

theorem mem_iff_get {m : HMap K} (h : Ok m) (k : K) (v : Nat) : (k, v) ∈ m ↔ m.get k = some v := by
  induction m with
  | nil => simp [get_nil]
  | cons e m ih =>
    have h' : (e.1 :: m.map (·.1)).Nodup := h
    obtain ⟨hn, hd⟩ := List.nodup_cons.1 h'
    rw [get_cons, List.mem_cons, ih hd]
    constructor
    · rintro (rfl | hg)
      · simp
      · have : e.1 ≠ k := by
          intro hk
          exact hn (hk ▸ List.mem_map.2 ⟨(k, v), (ih hd).2 hg, rfl⟩)
        simp [this, hg]
    · intro hg
      by_cases hk : e.1 = k
      · left; simp [hk] at hg; subst hk; subst hg; rfl
      · right; simpa [hk] using hg

theorem get_none_iff {m : HMap K} (k : K) : m.get k = none ↔ ∀ v, (k, v) ∉ m := by
  induction m with
  | nil => simp [get_nil]
  | cons e m ih =>
    rw [get_cons]
    by_cases hk : e.1 = k
    · simp only [hk, if_true, reduceCtorEq, false_iff, not_forall, not_not]
      exact ⟨e.2, by subst hk; simp⟩
    · simp only [hk, if_false, ih]
      constructor
      · intro h v hm
        rcases List.mem_cons.1 hm with h1 | h1
        · exact hk (h1 ▸ rfl)
        · exact h v h1
      · intro h v hm; exact h v (List.mem_cons_of_mem _ hm)

omit [DecidableEq K] in
theorem Ok.perm {m m' : HMap K} (h : Ok m) (hp : m'.Perm m) : Ok m' :=
  (hp.map _).nodup_iff.2 h

theorem get_perm {m m' : HMap K} (h : Ok m) (hp : m'.Perm m) (k : K) : m'.get k = m.get k := by
  have h' := h.perm hp
  cases hg : m.get k with
  | none =>
    rw [get_none_iff] at hg ⊢
    intro v hm; exact hg v (hp.mem_iff.1 hm)
  | some v =>
    rw [← mem_iff_get h'] 
    exact hp.mem_iff.2 ((mem_iff_get h _ _).2 hg)

/-- What `collect` contains, starting from any map. -/
theorem get_foldl_insert (es : List (K × Nat)) (m : HMap K) (k : K) (hes : (es.map (·.1)).Nodup) :
    (es.foldl (fun m e => m.insert e.1 e.2) m).get k = (HMap.get es k).or (m.get k) := by
  induction es generalizing m with
  | nil => simp [get_nil]
  | cons e es ih =>
    have h' : (e.1 :: es.map (·.1)).Nodup := hes
    obtain ⟨hn, hd⟩ := List.nodup_cons.1 h'
    rw [List.foldl_cons, ih _ hd, get_insert, get_cons]
    by_cases hk : e.1 = k
    · have : HMap.get es k = none := by
        rw [get_none_iff]
        intro v hm
        exact hn (hk ▸ List.mem_map.2 ⟨(k, v), hm, rfl⟩)
      simp [hk, this]
    · simp [hk]

theorem get_collect {es : List (K × Nat)} (hes : (es.map (·.1)).Nodup) (k : K) :
    (collect es).get k = HMap.get es k := by
  unfold collect
  rw [get_foldl_insert es [] k hes, get_nil]; simp

theorem ok_foldl (es : List (K × Nat)) (m : HMap K) (h : Ok m) :
    Ok (es.foldl (fun m e => m.insert e.1 e.2) m) := by
  induction es generalizing m with
  | nil => exact h
  | cons e es ih => exact ih _ (ok_insert h _ _)

theorem ok_collect (es : List (K × Nat)) : Ok (collect es) := ok_foldl es [] ok_nil

/-- Every entry of a collected map is one of the entries collected. -/
theorem mem_of_get_foldl (es : List (K × Nat)) (m : HMap K) (k : K) (v : Nat)
    (h : (es.foldl (fun m e => m.insert e.1 e.2) m).get k = some v) : (k, v) ∈ es ∨ m.get k = some v := by
  induction es generalizing m with
  | nil => exact .inr h
  | cons e es ih =>
    rw [List.foldl_cons] at h
    rcases ih _ h with h1 | h1
    · exact .inl (List.mem_cons_of_mem _ h1)
    · rw [get_insert] at h1
      by_cases hk : e.1 = k
      · simp [hk] at h1; left; subst hk; subst h1; simp
      · simp [hk] at h1; exact .inr h1

theorem mem_of_get_collect {es : List (K × Nat)} {k : K} {v : Nat} (h : (collect es).get k = some v) :
    (k, v) ∈ es := by
  rcases mem_of_get_foldl es [] k v h with h1 | h1
  · exact h1
  · rw [get_nil] at h1; cases h1

end HMap

/-! ### Histories -/

section
variable {A : Type}

theorem regs_append (h h' : List (VarAction A)) : regs (h ++ h') = regs h ++ regs h' := by
  induction h with
  | nil => rfl
  | cons e h ih => cases e <;> simp [regs, ih]

theorem regs_snoc_register (h : List (VarAction A)) (ns name : Str) (a : A) :
    regs (h ++ [.register ns name a]) = regs h ++ [(⟨ns, name⟩, a)] := by
  rw [regs_append]; rfl

theorem regs_snoc_update (h : List (VarAction A)) (v : Nat) (a : A) :
    regs (h ++ [.update v a]) = regs h := by
  rw [regs_append]; simp [regs]

theorem currentValue_nil (k : Nat) (a : A) : ¬ CurrentValue ([] : List (VarAction A)) k a := by
  rintro ⟨pre, e, post, h, _⟩
  have := congrArg List.length h
  simp at this

theorem currentValue_snoc (h : List (VarAction A)) (e : VarAction A) (k : Nat) (a : A) :
    CurrentValue (h ++ [e]) k a ↔
      GivesValue h e k a ∨ (CurrentValue h k a ∧ ∀ b, e ≠ .update k b) := by
  constructor
  · rintro ⟨pre, e', post, heq, hg, hp⟩
    rcases List.eq_nil_or_concat post with rfl | ⟨post', x, rfl⟩
    · obtain ⟨h1, h2⟩ := List.append_inj' heq rfl
      cases h2; subst h1
      exact .inl hg
    · rw [List.concat_eq_append] at heq hp
      have heq' : h ++ [e] = (pre ++ e' :: post') ++ [x] := by simpa using heq
      obtain ⟨h1, h2⟩ := List.append_inj' heq' rfl
      cases h2
      right
      refine ⟨⟨pre, e', post', h1, hg, fun b hb => hp b (by simp [hb])⟩, ?_⟩
      rintro b rfl
      exact hp b (by simp)
  · rintro (hg | ⟨⟨pre, e', post, rfl, hg, hp⟩, hne⟩)
    · exact ⟨h, e, [], by simp, hg, by simp⟩
    · refine ⟨pre, e', post ++ [e], by simp, hg, ?_⟩
      intro b hb
      rcases List.mem_append.1 hb with hb | hb
      · exact hp b hb
      · exact hne b (List.mem_singleton.1 hb).symm

theorem isLatest_snoc_register (h : List (VarAction A)) (ns name ns' name' : Str) (a : A) (k : Nat) :
    IsLatest (h ++ [.register ns name a]) ns' name' k ↔
      if (⟨ns, name⟩ : FullName) = ⟨ns', name'⟩ then k = (regs h).length else IsLatest h ns' name' k := by
  unfold IsLatest
  rw [regs_snoc_register]
  simp only [List.map_append, List.map_cons, List.map_nil]
  have hl : ((regs h).map (·.1)).length = (regs h).length := by simp
  generalize hL : (regs h).map (·.1) = L at *
  rw [← hl]
  by_cases hk : (⟨ns, name⟩ : FullName) = ⟨ns', name'⟩
  · simp only [hk, if_true]
    constructor
    · rintro ⟨h1, h2⟩
      have hlt : k < (L ++ [(⟨ns', name'⟩ : FullName)]).length := by
        by_contra hc
        rw [List.getElem?_eq_none (by omega)] at h1; cases h1
      rw [List.length_append, List.length_singleton] at hlt
      by_contra hne
      have := h2 L.length (by omega)
      simp at this
    · rintro rfl
      refine ⟨by simp, ?_⟩
      intro j hj
      rw [List.getElem?_eq_none (by simp; omega)]
      simp
  · simp only [hk, if_false]
    have key : ∀ j : Nat, (L ++ [(⟨ns, name⟩ : FullName)])[j]? = some (⟨ns', name'⟩ : FullName) ↔ L[j]? = some (⟨ns', name'⟩ : FullName) := by
      intro j
      rcases Nat.lt_trichotomy j L.length with hj | hj | hj
      · rw [List.getElem?_append_left hj]
      · subst hj
        have h1 : (L ++ [(⟨ns, name⟩ : FullName)])[L.length]? = some ⟨ns, name⟩ := by simp
        have h2 : L[L.length]? = none := List.getElem?_eq_none (Nat.le_refl _)
        rw [h1, h2]
        constructor
        · intro e; exact absurd (Option.some.inj e) hk
        · intro e; cases e
      · rw [List.getElem?_eq_none (by simp; omega), List.getElem?_eq_none (by omega)]
    simp only [ne_eq, key]

/-- What holds of every environment with a history. -/
structure VarInv (h : List (VarAction A)) (env : VarEnv A) : Prop where
  len : env.arrays.length = (regs h).length
  ok : HMap.Ok env.names
  names : ∀ ns name k, env.names.get ⟨ns, name⟩ = some k ↔ IsLatest h ns name k
  values : ∀ (k : Nat) (a : A), env.arrays[k]? = some a ↔ CurrentValue h k a

theorem varInv_new : VarInv ([] : List (VarAction A)) VarEnv.new where
  len := rfl
  ok := HMap.ok_nil
  names := by
    intro ns name k
    simp [VarEnv.new, HMap.get_nil, IsLatest, regs]
  values := by
    intro k a
    simp [VarEnv.new, currentValue_nil]

theorem VarInv.register {h : List (VarAction A)} {env : VarEnv A} (H : VarInv h env) (ns name : Str) (a : A) :
    VarInv (h ++ [.register ns name a]) (env.register ns name a).1 where
  len := by simp [VarEnv.register, regs_snoc_register, H.len]
  ok := HMap.ok_insert H.ok _ _
  names := by
    intro ns' name' k
    rw [isLatest_snoc_register]
    show (HMap.insert env.names _ _).get _ = _ ↔ _
    rw [HMap.get_insert]
    by_cases hk : (⟨ns, name⟩ : FullName) = ⟨ns', name'⟩
    · simp only [hk, if_true, Option.some.injEq, H.len]; exact eq_comm
    · simp only [hk, if_false]; exact H.names _ _ _
  values := by
    intro k b
    rw [currentValue_snoc, ← H.values]
    show (env.arrays ++ [a])[k]? = some b ↔ _
    have hb : ∀ b', (VarAction.register ns name a) ≠ VarAction.update k b' := by intro b' hh; cases hh
    simp only [GivesValue, reduceCtorEq, false_or, VarAction.register.injEq, ← H.len]
    rcases Nat.lt_trichotomy k env.arrays.length with hlt | heq | hgt
    · rw [List.getElem?_append_left hlt]
      constructor
      · intro h1; exact .inr ⟨h1, hb⟩
      · rintro (⟨_, _, _, hh⟩ | h1)
        · omega
        · exact h1.1
    · subst heq
      simp only [List.getElem?_concat_length, Option.some.injEq]
      constructor
      · rintro rfl; left; simp
      · rintro (⟨_, _, ⟨_, _, h1⟩, _⟩ | ⟨h1, _⟩)
        · exact h1
        · rw [List.getElem?_eq_none (Nat.le_refl _)] at h1; cases h1
    · rw [List.getElem?_eq_none (by simp; omega), List.getElem?_eq_none (by omega)]
      constructor
      · intro h1; cases h1
      · rintro (⟨_, _, _, hh⟩ | ⟨h1, _⟩)
        · omega
        · cases h1

theorem setById_eq {env env' : VarEnv A} {vid : Nat} {a : A} (hs : env.setById vid a = some env') :
    vid < env.arrays.length ∧ env' = { env with arrays := env.arrays.set vid a } := by
  unfold VarEnv.setById at hs
  by_cases hl : vid < env.arrays.length
  · simp only [hl, if_true, Option.some.injEq] at hs; exact ⟨hl, hs.symm⟩
  · simp [hl] at hs

theorem VarInv.update {h : List (VarAction A)} {env env' : VarEnv A} (H : VarInv h env) (vid : Nat) (a : A)
    (hs : env.setById vid a = some env') : VarInv (h ++ [.update vid a]) env' := by
  obtain ⟨hl, rfl⟩ := setById_eq hs
  refine ⟨by simp [regs_snoc_update, H.len], H.ok, ?_, ?_⟩
  · intro ns name k
    unfold IsLatest
    rw [regs_snoc_update]
    exact H.names ns name k
  · intro k b
    rw [currentValue_snoc, ← H.values]
    show (env.arrays.set vid a)[k]? = some b ↔ _
    simp only [GivesValue, reduceCtorEq, false_and, exists_false, or_false, VarAction.update.injEq, ne_eq, not_and]
    by_cases hk : vid = k
    · subst hk
      rw [List.getElem?_set_self hl]
      constructor
      · intro h1; exact .inl ⟨rfl, Option.some.inj h1⟩
      · rintro (⟨_, rfl⟩ | ⟨_, h2⟩)
        · rfl
        · exact absurd rfl (h2 a rfl)
    · rw [List.getElem?_set_ne hk]
      constructor
      · intro h1; exact .inr ⟨h1, fun _ h2 => absurd h2 hk⟩
      · rintro (⟨h1, _⟩ | ⟨h1, _⟩)
        · exact absurd h1 hk
        · exact h1

theorem VarHist.inv {h : List (VarAction A)} {env : VarEnv A} (H : VarHist h env) : VarInv h env := by
  induction H with
  | new => exact varInv_new
  | register ns name a _ ih => exact ih.register ns name a
  | update vid a _ hs ih => exact ih.update vid a hs

/-! ### Consequences -/

theorem VarInv.lt {h : List (VarAction A)} {env : VarEnv A} (H : VarInv h env) {ns name : Str} {k : Nat}
    (hl : IsLatest h ns name k) : k < env.arrays.length := by
  have h1 := hl.1
  by_contra hc
  rw [List.getElem?_eq_none (by rw [List.length_map, ← H.len]; omega)] at h1
  cases h1

theorem isLatest_inj {h : List (VarAction A)} {ns name ns' name' : Str} {k : Nat}
    (h1 : IsLatest h ns name k) (h2 : IsLatest h ns' name' k) : ns = ns' ∧ name = name' := by
  have := h1.1.symm.trans h2.1
  simp only [Option.some.injEq, FullName.mk.injEq] at this
  exact this

theorem isLatest_unique {h : List (VarAction A)} {ns name : Str} {k k' : Nat}
    (h1 : IsLatest h ns name k) (h2 : IsLatest h ns name k') : k = k' := by
  rcases Nat.lt_trichotomy k k' with h3 | h3 | h3
  · exact absurd h2.1 (h1.2 _ h3)
  · exact h3
  · exact absurd h1.1 (h2.2 _ h3)

theorem VarInv.getByName {h : List (VarAction A)} {env : VarEnv A} (H : VarInv h env) (ns name : Str) :
    (∃ k a, IsLatest h ns name k ∧ env.arrays[k]? = some a ∧ env.getByName ns name = .ok (some a)) ∨
    ((∀ k, ¬ IsLatest h ns name k) ∧ env.getByName ns name = .ok none) := by
  cases hg : env.names.get ⟨ns, name⟩ with
  | none =>
    right
    refine ⟨fun k hk => ?_, by simp [VarEnv.getByName, hg]⟩
    rw [← H.names, hg] at hk; cases hk
  | some k =>
    left
    have hl := (H.names _ _ _).1 hg
    have hlt := H.lt hl
    refine ⟨k, env.arrays[k], hl, List.getElem?_eq_getElem hlt, ?_⟩
    simp [VarEnv.getByName, hg, hlt]

theorem VarInv.mem {h : List (VarAction A)} {env : VarEnv A} (H : VarInv h env) (ns name : Str) (k : Nat) :
    ((⟨ns, name⟩ : FullName), k) ∈ env.names ↔ IsLatest h ns name k := by
  rw [HMap.mem_iff_get H.ok, H.names]

theorem exists_latest {h : List (VarAction A)} {ns name : Str} {j : Nat}
    (hj : ((regs h).map (·.1))[j]? = some ⟨ns, name⟩) : ∃ k, IsLatest h ns name k := by
  by_contra hc
  have key : ∀ n j, (regs h).length ≤ j + n → ((regs h).map (·.1))[j]? ≠ some ⟨ns, name⟩ := by
    intro n
    induction n with
    | zero =>
      intro j hj e
      rw [List.getElem?_eq_none (by simpa using hj)] at e; cases e
    | succ n ih =>
      intro j hj e
      exact hc ⟨j, e, fun i hi => ih i (by omega)⟩
  exact key (regs h).length j (by omega) hj

theorem mem_currentVarIds {order : List (FullName × Nat)} {ns : Str} {k : Nat} :
    k ∈ VarEnv.currentVarIds order ns ↔ ∃ name, ((⟨ns, name⟩ : FullName), k) ∈ order := by
  unfold VarEnv.currentVarIds
  rw [List.mem_filterMap]
  constructor
  · rintro ⟨⟨⟨n, m⟩, v⟩, he, h1⟩
    by_cases hn : n = ns
    · simp only [hn, if_true, Option.some.injEq] at h1; subst hn; subst h1; exact ⟨m, he⟩
    · simp [hn] at h1
  · rintro ⟨name, he⟩
    exact ⟨_, he, by simp⟩

theorem mem_currentVarNames {order : List (FullName × Nat)} {ns name : Str} :
    name ∈ VarEnv.currentVarNames order ns ↔ ∃ k, ((⟨ns, name⟩ : FullName), k) ∈ order := by
  unfold VarEnv.currentVarNames
  rw [List.mem_filterMap]
  constructor
  · rintro ⟨⟨⟨n, m⟩, v⟩, he, h1⟩
    by_cases hn : n = ns
    · simp only [hn, if_true, Option.some.injEq] at h1; subst hn; subst h1; exact ⟨v, he⟩
    · simp [hn] at h1
  · rintro ⟨k, he⟩
    exact ⟨_, he, by simp⟩

theorem nodup_currentVarNames {order : List (FullName × Nat)} (ho : HMap.Ok order) (ns : Str) :
    (VarEnv.currentVarNames order ns).Nodup := by
  induction order with
  | nil => exact List.nodup_nil
  | cons e es ih =>
    have h' : (e.1 :: es.map (·.1)).Nodup := ho
    obtain ⟨hn, hd⟩ := List.nodup_cons.1 h'
    unfold VarEnv.currentVarNames
    rw [List.filterMap_cons]
    by_cases hns : e.1.ns = ns
    · simp only [hns, if_true]
      refine List.nodup_cons.2 ⟨?_, ih hd⟩
      intro hm
      obtain ⟨k, hk⟩ := mem_currentVarNames.1 hm
      apply hn
      have : e.1 = ⟨ns, e.1.name⟩ := by rw [← hns]
      rw [this]
      exact List.mem_map.2 ⟨_, hk, rfl⟩
    · simp only [hns, if_false]; exact ih hd

theorem nodup_currentVarIds {order : List (FullName × Nat)} (ho : (order.map (·.2)).Nodup) (ns : Str) :
    (VarEnv.currentVarIds order ns).Nodup := by
  induction order with
  | nil => exact List.nodup_nil
  | cons e es ih =>
    have h' : (e.2 :: es.map (·.2)).Nodup := ho
    obtain ⟨hn, hd⟩ := List.nodup_cons.1 h'
    unfold VarEnv.currentVarIds
    rw [List.filterMap_cons]
    by_cases hns : e.1.ns = ns
    · simp only [hns, if_true]
      refine List.nodup_cons.2 ⟨?_, ih hd⟩
      intro hm
      obtain ⟨k, hk⟩ := mem_currentVarIds.1 hm
      exact hn (List.mem_map.2 ⟨_, hk, rfl⟩)
    · simp only [hns, if_false]; exact ih hd

theorem VarInv.nodup_ids {h : List (VarAction A)} {env : VarEnv A} (H : VarInv h env) :
    (env.names.map (·.2)).Nodup := by
  have hk : env.names.Nodup := List.Nodup.of_map _ H.ok
  refine List.Nodup.map_on ?_ hk
  rintro ⟨⟨n, m⟩, v⟩ hx ⟨⟨n', m'⟩, v'⟩ hy hv
  have hv' : v = v' := hv
  subst hv'
  obtain ⟨rfl, rfl⟩ := isLatest_inj ((H.mem _ _ _).1 hx) ((H.mem _ _ _).1 hy)
  rfl

theorem iterNs_ok {env : VarEnv A} (ns : Str) (order : List (FullName × Nat))
    (hget : ∀ e ∈ order, e.1.ns = ns → ∃ a, env.getByName ns e.1.name = .ok (some a)) :
    ∃ l, env.iterNs ns order = .ok l ∧ l.map (·.1) = VarEnv.currentVarNames order ns ∧
      ∀ p ∈ l, env.getByName ns p.1 = .ok (some p.2) := by
  induction order with
  | nil => exact ⟨[], rfl, rfl, by simp⟩
  | cons e es ih =>
    obtain ⟨l, h1, h2, h3⟩ := ih (fun e he => hget e (List.mem_cons_of_mem _ he))
    by_cases hns : e.1.ns = ns
    · obtain ⟨a, ha⟩ := hget e (by simp) hns
      refine ⟨(e.1.name, a) :: l, ?_, ?_, ?_⟩
      · simp [VarEnv.iterNs, hns, ha, h1, bind, Except.bind]
      · simp only [List.map_cons, VarEnv.currentVarNames, List.filterMap_cons, hns, if_true]
        rw [h2]; rfl
      · intro p hp
        rcases List.mem_cons.1 hp with rfl | hp
        · exact ha
        · exact h3 p hp
    · refine ⟨l, ?_, ?_, h3⟩
      · simp [VarEnv.iterNs, hns, h1]
      · simp only [VarEnv.currentVarNames, List.filterMap_cons, hns, if_false]
        exact h2

/-! ### Saving and loading -/

theorem splitSep_of_not_mem {s : Str} (h : VarEnv.sep ∉ s) : VarEnv.splitSep s = [s] := by
  induction s with
  | nil => rfl
  | cons c cs ih =>
    have hc : c ≠ VarEnv.sep := fun e => h (by simp [e])
    have hcs : VarEnv.sep ∉ cs := fun e => h (List.mem_cons_of_mem _ e)
    simp [VarEnv.splitSep, hc, ih hcs]

theorem splitSep_append_sep (a b : Str) (ha : VarEnv.sep ∉ a) :
    VarEnv.splitSep (a ++ VarEnv.sep :: b) = a :: VarEnv.splitSep b := by
  induction a with
  | nil => simp [VarEnv.splitSep]
  | cons c cs ih =>
    have hc : c ≠ VarEnv.sep := fun e => ha (by simp [e])
    have hcs : VarEnv.sep ∉ cs := fun e => ha (List.mem_cons_of_mem _ e)
    simp [VarEnv.splitSep, hc, ih hcs]

theorem splitSep_pieces (s : Str) : ∀ p ∈ VarEnv.splitSep s, VarEnv.sep ∉ p := by
  induction s with
  | nil => intro p hp; simp [VarEnv.splitSep] at hp; simp [hp]
  | cons c cs ih =>
    intro p hp
    by_cases hc : c = VarEnv.sep
    · simp only [VarEnv.splitSep, hc, if_true] at hp
      rcases List.mem_cons.1 hp with rfl | hp
      · simp
      · exact ih p hp
    · simp only [VarEnv.splitSep, hc, if_false] at hp
      cases hs : VarEnv.splitSep cs with
      | nil => simp [hs] at hp; subst hp; simpa using Ne.symm hc
      | cons q qs =>
        rw [hs] at hp ih
        rcases List.mem_cons.1 hp with rfl | hp
        · intro hm
          rcases List.mem_cons.1 hm with h1 | h1
          · exact hc h1.symm
          · exact ih q (by simp) h1
        · exact ih p (List.mem_cons_of_mem _ hp)

theorem splitSep_ne_nil (s : Str) : VarEnv.splitSep s ≠ [] := by
  cases s with
  | nil => simp [VarEnv.splitSep]
  | cons c cs =>
    unfold VarEnv.splitSep
    split
    · simp
    · split <;> simp

theorem splitSep_two (a b : Str) : ∃ p q r, VarEnv.splitSep (a ++ VarEnv.sep :: b) = p :: q :: r := by
  induction a with
  | nil =>
    obtain ⟨q, r, h⟩ := List.exists_cons_of_ne_nil (splitSep_ne_nil b)
    exact ⟨[], q, r, by simp [VarEnv.splitSep, h]⟩
  | cons c cs ih =>
    obtain ⟨p, q, r, h⟩ := ih
    by_cases hc : c = VarEnv.sep
    · exact ⟨[], p, q :: r, by simp [VarEnv.splitSep, hc, h]⟩
    · exact ⟨c :: p, q, r, by simp [VarEnv.splitSep, hc, h]⟩

theorem parseName_fullNameStr {n : FullName} (h1 : VarEnv.sep ∉ n.ns) (h2 : VarEnv.sep ∉ n.name) :
    VarEnv.parseName (VarEnv.fullNameStr n) = .ok n := by
  unfold VarEnv.parseName VarEnv.fullNameStr
  rw [splitSep_append_sep _ _ h1, splitSep_of_not_mem h2]

theorem parseName_ok (n : FullName) : ∃ n', VarEnv.parseName (VarEnv.fullNameStr n) = .ok n' := by
  obtain ⟨p, q, r, h⟩ := splitSep_two n.ns n.name
  exact ⟨⟨p, q⟩, by simp [VarEnv.parseName, VarEnv.fullNameStr, h]⟩

theorem parseName_sepFree {s : Str} {n : FullName} (h : VarEnv.parseName s = .ok n) :
    VarEnv.sep ∉ n.ns ∧ VarEnv.sep ∉ n.name := by
  unfold VarEnv.parseName at h
  split at h
  · rename_i a b r hs
    cases h
    have := splitSep_pieces s
    rw [hs] at this
    exact ⟨this a (by simp), this b (by simp)⟩
  · cases h

theorem parseNames_ok {es : List (Str × Nat)} {r : List (FullName × Nat)} (h : VarEnv.parseNames es = .ok r) :
    List.Forall₂ (fun e f => VarEnv.parseName e.1 = .ok f.1 ∧ e.2 = f.2) es r := by
  induction es generalizing r with
  | nil => cases h; exact .nil
  | cons e es ih =>
    unfold VarEnv.parseNames at h
    cases h1 : VarEnv.parseName e.1 with
    | error p => simp [h1, bind, Except.bind] at h
    | ok n =>
      cases h2 : VarEnv.parseNames es with
      | error p => simp [h1, h2, bind, Except.bind] at h
      | ok rest =>
        simp only [h1, h2, bind, Except.bind, Except.ok.injEq] at h
        subst h
        exact .cons ⟨h1, rfl⟩ (ih h2)

theorem parseNames_total (es : List (Str × Nat)) (h : ∀ e ∈ es, ∃ n, VarEnv.parseName e.1 = .ok n) :
    ∃ r, VarEnv.parseNames es = .ok r := by
  induction es with
  | nil => exact ⟨[], rfl⟩
  | cons e es ih =>
    obtain ⟨n, hn⟩ := h e (by simp)
    obtain ⟨r, hr⟩ := ih (fun e he => h e (List.mem_cons_of_mem _ he))
    exact ⟨(n, e.2) :: r, by simp [VarEnv.parseNames, hn, hr, bind, Except.bind]⟩

theorem decodeAll_enc {J : Type} {enc : A → J} {dec : J → Option A} {as : List A}
    (h : ∀ a ∈ as, dec (enc a) = some a) : VarEnv.decodeAll dec (as.map enc) = some as := by
  induction as with
  | nil => rfl
  | cons a as ih =>
    simp [VarEnv.decodeAll, h a (by simp), ih (fun b hb => h b (List.mem_cons_of_mem _ hb))]

theorem decodeAll_none {J : Type} {enc : A → J} {dec : J → Option A} {as : List A} {a : A}
    (ha : a ∈ as) (h : dec (enc a) = none) : VarEnv.decodeAll dec (as.map enc) = none := by
  induction as with
  | nil => cases ha
  | cons b as ih =>
    rcases List.mem_cons.1 ha with rfl | ha
    · simp [VarEnv.decodeAll, h]
    · simp only [List.map_cons, VarEnv.decodeAll, ih ha]
      cases dec (enc b) <;> rfl

/-- Every entry of the saved name map comes from an entry of the environment. -/
theorem save_names_mem {J : Type} {enc : A → J} {env : VarEnv A} {o1 : List (FullName × Nat)}
    (ho1 : o1.Perm env.names) {s : Str} {v : Nat} (h : (s, v) ∈ (env.save enc o1).names) :
    ∃ n, (n, v) ∈ env.names ∧ s = VarEnv.fullNameStr n := by
  have hok : HMap.Ok (env.save enc o1).names := HMap.ok_collect _
  have h1 := (HMap.mem_iff_get hok s v).1 h
  have h2 := HMap.mem_of_get_collect h1
  obtain ⟨⟨n, w⟩, he, heq⟩ := List.mem_map.1 h2
  cases heq
  exact ⟨n, ho1.mem_iff.1 he, rfl⟩

theorem load_save_ok {J : Type} {enc : A → J} {dec : J → Option A} {env : VarEnv A}
    (hdec : ∀ a ∈ env.arrays, dec (enc a) = some a)
    {o1 : List (FullName × Nat)} (ho1 : o1.Perm env.names)
    {o2 : List (Str × Nat)} (ho2 : o2.Perm (env.save enc o1).names) :
    ∃ es, VarEnv.parseNames o2 = .ok es ∧
      VarEnv.load dec (env.save enc o1) o2 = .ok (some ⟨env.arrays, HMap.collect es⟩) := by
  obtain ⟨es, hes⟩ := parseNames_total o2 (by
    intro e he
    obtain ⟨n, _, hn⟩ := save_names_mem ho1 (ho2.mem_iff.1 he)
    obtain ⟨n', hn'⟩ := parseName_ok n
    exact ⟨n', by rw [hn]; exact hn'⟩)
  refine ⟨es, hes, ?_⟩
  unfold VarEnv.load
  have : VarEnv.decodeAll dec (env.save enc o1).arrays = some env.arrays := decodeAll_enc hdec
  simp [this, hes, bind, Except.bind]

theorem fullNameStr_inj {n m : FullName} (hn1 : VarEnv.sep ∉ n.ns) (hn2 : VarEnv.sep ∉ n.name)
    (hm1 : VarEnv.sep ∉ m.ns) (hm2 : VarEnv.sep ∉ m.name)
    (h : VarEnv.fullNameStr n = VarEnv.fullNameStr m) : n = m := by
  have h1 := parseName_fullNameStr hn1 hn2
  have h2 := parseName_fullNameStr hm1 hm2
  rw [h, h2] at h1
  cases h1; rfl

theorem load_save_names {J : Type} {enc : A → J} {env : VarEnv A} (hok : HMap.Ok env.names)
    (hfree : ∀ e ∈ env.names, VarEnv.sep ∉ e.1.ns ∧ VarEnv.sep ∉ e.1.name)
    {o1 : List (FullName × Nat)} (ho1 : o1.Perm env.names)
    {o2 : List (Str × Nat)} (ho2 : o2.Perm (env.save enc o1).names)
    {es : List (FullName × Nat)} (hes : VarEnv.parseNames o2 = .ok es) (k : FullName) :
    (HMap.collect es).get k = env.names.get k := by
  have hok1 : HMap.Ok o1 := hok.perm ho1
  -- the keys written are pairwise distinct
  have hnd : ((o1.map (fun e => (VarEnv.fullNameStr e.1, e.2))).map (·.1)).Nodup := by
    rw [List.map_map]
    have : ((fun x : Str × Nat => x.1) ∘ fun e : FullName × Nat => (VarEnv.fullNameStr e.1, e.2)) =
        (fun n => VarEnv.fullNameStr n) ∘ (fun e : FullName × Nat => e.1) := rfl
    rw [this, ← List.map_map]
    refine List.Nodup.map_on ?_ hok1
    intro x hx y hy hxy
    obtain ⟨ex, hex, rfl⟩ := List.mem_map.1 hx
    obtain ⟨ey, hey, rfl⟩ := List.mem_map.1 hy
    have a := hfree ex (ho1.mem_iff.1 hex)
    have b := hfree ey (ho1.mem_iff.1 hey)
    exact fullNameStr_inj a.1 a.2 b.1 b.2 hxy
  have hmem : ∀ (s : Str) (v : Nat), (s, v) ∈ o2 ↔ ∃ n, (n, v) ∈ env.names ∧ s = VarEnv.fullNameStr n := by
    intro s v
    constructor
    · intro h; exact save_names_mem ho1 (ho2.mem_iff.1 h)
    · rintro ⟨n, hn, rfl⟩
      apply ho2.mem_iff.2
      have hok2 : HMap.Ok (env.save enc o1).names := HMap.ok_collect _
      rw [HMap.mem_iff_get hok2]
      show (HMap.collect _).get _ = _
      rw [HMap.get_collect hnd]
      exact (HMap.mem_iff_get hnd _ _).1 (List.mem_map.2 ⟨(n, v), ho1.mem_iff.2 hn, rfl⟩)
  -- so the parsed entries are exactly the entries of the environment
  have hF := parseNames_ok hes
  have hmem2 : ∀ (n : FullName) (v : Nat), (n, v) ∈ es ↔ (n, v) ∈ env.names := by
    intro n v
    constructor
    · intro h
      obtain ⟨i, hi⟩ := List.getElem?_of_mem h
      have hlen := hF.length_eq
      have hilt : i < es.length := by
        by_contra hc; rw [List.getElem?_eq_none (by omega)] at hi; cases hi
      have hrel := List.forall₂_iff_get.1 hF |>.2 i (by omega) hilt
      have hget : es.get ⟨i, hilt⟩ = (n, v) := by
        rw [List.getElem?_eq_getElem hilt] at hi; exact Option.some.inj hi
      rw [hget] at hrel
      obtain ⟨m, hm, hs⟩ := (hmem _ _).1 (List.get_mem o2 ⟨i, by omega⟩)
      have hf := hfree _ hm
      have h3 : VarEnv.parseName (VarEnv.fullNameStr m) = .ok n := hs ▸ hrel.1
      rw [parseName_fullNameStr hf.1 hf.2] at h3
      cases h3
      have h4 : (o2.get ⟨i, by omega⟩).2 = v := hrel.2
      rw [← h4]; exact hm
    · intro h
      have h1 := (hmem (VarEnv.fullNameStr n) v).2 ⟨n, h, rfl⟩
      obtain ⟨i, hi⟩ := List.getElem?_of_mem h1
      have hlen := hF.length_eq
      have hilt : i < o2.length := by
        by_contra hc; rw [List.getElem?_eq_none (by omega)] at hi; cases hi
      have hrel := List.forall₂_iff_get.1 hF |>.2 i hilt (by omega)
      have hget : o2.get ⟨i, hilt⟩ = (VarEnv.fullNameStr n, v) := by
        rw [List.getElem?_eq_getElem hilt] at hi; exact Option.some.inj hi
      rw [hget] at hrel
      have hf := hfree _ h
      have h3 := hrel.1
      rw [parseName_fullNameStr hf.1 hf.2] at h3
      have h4 : es.get ⟨i, by omega⟩ = (n, v) := by
        have h5 := Except.ok.inj h3
        exact Prod.ext h5.symm hrel.2.symm
      rw [← h4]; exact List.get_mem _ _
  have hokc : HMap.Ok (HMap.collect es) := HMap.ok_collect _
  -- keys of the parsed entries are distinct
  have hndes : (es.map (·.1)).Nodup := by
    have hnd2 : (o2.map (·.1)).Nodup := (HMap.ok_collect _ : HMap.Ok (env.save enc o1).names).perm ho2
    have hkey : es.map (fun e => VarEnv.fullNameStr e.1) = o2.map (·.1) := by
      apply List.ext_getElem
      · simp [hF.length_eq]
      · intro i h1 h2
        simp only [List.getElem_map]
        have hi1 : i < es.length := by simpa using h1
        have hi2 : i < o2.length := by simpa using h2
        have hrel := List.forall₂_iff_get.1 hF |>.2 i hi2 hi1
        obtain ⟨m, hm, hs⟩ := (hmem _ _).1 (List.get_mem o2 ⟨i, hi2⟩)
        have hf := hfree _ hm
        have h3 := hrel.1
        rw [hs, parseName_fullNameStr hf.1 hf.2] at h3
        have h5 := Except.ok.inj h3
        simp only [List.get_eq_getElem] at h5 hs
        rw [← h5, hs]
    have h6 : (es.map (fun e => VarEnv.fullNameStr e.1)).Nodup := hkey ▸ hnd2
    have h7 : ((es.map (·.1)).map VarEnv.fullNameStr).Nodup := by
      rw [List.map_map]; exact h6
    exact List.Nodup.of_map _ h7
  rw [HMap.get_collect hndes]
  cases hg : env.names.get k with
  | none =>
    rw [HMap.get_none_iff] at hg ⊢
    intro v hv; exact hg v ((hmem2 _ _).1 hv)
  | some v =>
    rw [← HMap.mem_iff_get hndes]
    exact (hmem2 _ _).2 ((HMap.mem_iff_get hok _ _).2 hg)

end
end Verif
