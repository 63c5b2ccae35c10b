import Verif.Lemmas.Variables
import Verif.Props.Graph
/-! # Property theorems about the variable environment: C15, C16, C17 -/

namespace Verif.Props
open Verif Verif.Spec Verif.Graph
variable {A : Type}

/-! ### A concrete history used to show that the hypotheses can be met -/

/-- Namespace and name strings of the examples. -/
def nsA : Str := "a".toList
def nsB : Str := "b".toList
def nmX : Str := "x".toList
def nmY : Str := "y".toList

/-- `x` registered twice in namespace `a` and once in `b`, with an update of the first array in between. -/
def exVarHist : List (VarAction Nat) :=
  [.register nsA nmX 10, .register nsB nmX 20, .update 0 11, .register nsA nmX 30, .register nsA nmY 40, .update 1 21]

/-- The environment after `exVarHist`. -/
def exVarEnv : VarEnv Nat :=
  ⟨[11, 21, 30, 40], [(⟨nsA, nmY⟩, 3), (⟨nsA, nmX⟩, 2), (⟨nsB, nmX⟩, 1)]⟩

theorem exVarHist_ok : VarHist exVarHist exVarEnv :=
  VarHist.update 1 21 (VarHist.register nsA nmY 40 (VarHist.register nsA nmX 30
    (VarHist.update 0 11 (VarHist.register nsB nmX 20 (VarHist.register nsA nmX 10 VarHist.new)) rfl))) rfl

/-! ## C15 -/

/-- **C15** The id handed out by a registration is the number of registrations made before: it designates the new array and was never
handed out before. -/
theorem C15_registration_id (h : List (VarAction A)) (env : VarEnv A) (H : VarHist h env) (ns name : Str) (a : A) :
    (env.register ns name a).2 = (regs h).length ∧
    env.getById (env.register ns name a).2 = none ∧
    (env.register ns name a).1.getById (env.register ns name a).2 = some a := by
  have I := VarHist.inv H
  refine ⟨I.len, List.getElem?_eq_none (Nat.le_refl _), ?_⟩
  simp [VarEnv.register, VarEnv.getById]

example : VarHist exVarHist exVarEnv ∧ (exVarEnv.register nsB nmY 50).2 = 4 := ⟨exVarHist_ok, rfl⟩

/-- **C15** Looking up an id gives the array of that registration with its later in-place updates, whatever was registered since
under the same or other names; an id that was not handed out gives nothing. -/
theorem C15_lookup_by_id (h : List (VarAction A)) (env : VarEnv A) (H : VarHist h env) (k : Nat) :
    (∀ a : A, env.getById k = some a ↔ CurrentValue h k a) ∧
    (env.getById k = none ↔ (regs h).length ≤ k) := by
  have I := VarHist.inv H
  refine ⟨fun a => I.values k a, ?_⟩
  rw [← I.len]
  exact List.getElem?_eq_none_iff

example : VarHist exVarHist exVarEnv ∧ exVarEnv.getById 0 = some 11 ∧ exVarEnv.getById 4 = none :=
  ⟨exVarHist_ok, rfl, rfl⟩

/-- **C15** Looking up a name never panics. It gives the array of the latest registration under that namespace and name, with its
later in-place updates, and nothing exactly if no registration was made under that namespace and name. -/
theorem C15_lookup_by_name (h : List (VarAction A)) (env : VarEnv A) (H : VarHist h env) (ns name : Str) :
    ∃ r : Option A, env.getByName ns name = .ok r ∧
      (∀ a : A, r = some a ↔ ∃ k, IsLatest h ns name k ∧ CurrentValue h k a) ∧
      (r = none ↔ ∀ a : A, VarAction.register ns name a ∉ h) := by
  have I := VarHist.inv H
  have hreg : (∃ a : A, VarAction.register ns name a ∈ h) ↔ ∃ j : Nat, ((regs h).map (·.1))[j]? = some ⟨ns, name⟩ := by
    have : (∃ a : A, VarAction.register ns name a ∈ h) ↔ (⟨ns, name⟩ : FullName) ∈ (regs h).map (·.1) := by
      clear I H
      induction h with
      | nil => simp [regs]
      | cons e h ih =>
        cases e with
        | update v b =>
          simp only [regs, List.mem_cons, reduceCtorEq, false_or]; exact ih
        | register ns' name' b =>
          simp only [regs, List.map_cons, List.mem_cons, VarAction.register.injEq, FullName.mk.injEq]
          rw [← ih]
          constructor
          · rintro ⟨a, (⟨h1, h2, _⟩ | h3)⟩
            · exact .inl ⟨h1, h2⟩
            · exact .inr ⟨a, h3⟩
          · rintro (⟨h1, h2⟩ | ⟨a, h3⟩)
            · exact ⟨b, .inl ⟨h1, h2, rfl⟩⟩
            · exact ⟨a, .inr h3⟩
    rw [this, List.mem_iff_getElem?]
  rcases I.getByName ns name with ⟨k, a, hl, ha, hg⟩ | ⟨hn, hg⟩
  · refine ⟨some a, hg, ?_, ?_⟩
    · intro b
      constructor
      · intro e; cases e; exact ⟨k, hl, (I.values k a).1 ha⟩
      · rintro ⟨k', hl', hv⟩
        have := isLatest_unique hl hl'
        subst this
        rw [← I.values, ha] at hv
        exact hv
    · constructor
      · intro e; cases e
      · intro hno
        obtain ⟨b, hb⟩ := hreg.2 ⟨k, hl.1⟩
        exact absurd hb (hno b)
  · refine ⟨none, hg, ?_, ?_⟩
    · intro b
      constructor
      · intro e; cases e
      · rintro ⟨k', hl', _⟩; exact absurd hl' (hn k')
    · constructor
      · intro _ a ha
        obtain ⟨j, hj⟩ := hreg.1 ⟨a, ha⟩
        obtain ⟨k, hk⟩ := exists_latest hj
        exact hn k hk
      · intro _; rfl

example : VarHist exVarHist exVarEnv ∧ exVarEnv.getByName nsA nmX = .ok (some 30) ∧
    exVarEnv.getByName nsB nmX = .ok (some 21) ∧ exVarEnv.getByName nsB nmY = .ok none :=
  ⟨exVarHist_ok, rfl, rfl, rfl⟩

/-- **C15** Iterating over the whole environment lists every id handed out, once and in order, with its current array. -/
theorem C15_iteration (h : List (VarAction A)) (env : VarEnv A) (H : VarHist h env) :
    env.iterAll.map (·.1) = List.range (regs h).length ∧
    ∀ (k : Nat) (a : A), (k, a) ∈ env.iterAll ↔ CurrentValue h k a := by
  have I := VarHist.inv H
  constructor
  · rw [← I.len]
    unfold VarEnv.iterAll
    rw [List.map_map]
    have : ((fun x : Nat × A => x.1) ∘ fun p : A × Nat => (p.2, p.1)) = Prod.snd := rfl
    rw [this, List.zipIdx_map_snd, List.range_eq_range']
  · intro k a
    rw [← I.values]
    unfold VarEnv.iterAll
    rw [List.mem_map]
    constructor
    · rintro ⟨⟨b, i⟩, hm, e⟩
      cases e
      exact List.mk_mem_zipIdx_iff_getElem?.1 hm
    · intro hk
      exact ⟨(a, k), List.mk_mem_zipIdx_iff_getElem?.2 hk, rfl⟩

example : VarHist exVarHist exVarEnv ∧ exVarEnv.iterAll = [(0, 11), (1, 21), (2, 30), (3, 40)] := ⟨exVarHist_ok, rfl⟩

/-! ## C16 -/

/-- **C16** Registering in one namespace changes nothing that is visible in another one: names, ids and values. Only the order in which a
listing comes out may change. -/
theorem C16_registration_isolated (h : List (VarAction A)) (env : VarEnv A) (H : VarHist h env)
    (ns ns' name : Str) (a : A) (hne : ns' ≠ ns) (o1 o2 : List (FullName × Nat)) (ho1 : o1.Perm env.names)
    (ho2 : o2.Perm (env.register ns name a).1.names) :
    (∀ name' : Str, (env.register ns name a).1.getByName ns' name' = env.getByName ns' name') ∧
    (VarEnv.currentVarIds o2 ns').Perm (VarEnv.currentVarIds o1 ns') ∧
    (VarEnv.currentVarNames o2 ns').Perm (VarEnv.currentVarNames o1 ns') := by
  have I := VarHist.inv H
  have I2 := VarHist.inv (VarHist.register ns name a H)
  have hnk : ∀ name' : Str, (⟨ns, name⟩ : FullName) ≠ ⟨ns', name'⟩ := by
    intro n e; exact hne (FullName.mk.inj e).1.symm
  have hmem : ∀ (name' : Str) (k : Nat), ((⟨ns', name'⟩ : FullName), k) ∈ o2 ↔ ((⟨ns', name'⟩ : FullName), k) ∈ o1 := by
    intro name' k
    rw [ho2.mem_iff, ho1.mem_iff, HMap.mem_iff_get I2.ok, HMap.mem_iff_get I.ok]
    show (HMap.insert env.names _ _).get _ = _ ↔ _
    rw [HMap.get_insert]; simp [hnk]
  refine ⟨?_, ?_, ?_⟩
  · intro name'
    rcases I.getByName ns' name' with ⟨k, b, hl, hb, hg⟩ | ⟨hn, hg⟩
    · rw [hg]
      have hget : (env.register ns name a).1.names.get ⟨ns', name'⟩ = some k := by
        show (HMap.insert env.names _ _).get _ = _
        rw [HMap.get_insert]; simp only [hnk, if_false]; exact (I.names _ _ _).2 hl
      have hlt := I.lt hl
      have harr : (env.register ns name a).1.arrays[k]? = some b := by
        show (env.arrays ++ [a])[k]? = some b
        rw [List.getElem?_append_left hlt, hb]
      simp [VarEnv.getByName, hget, harr]
    · rw [hg]
      have hget : (env.register ns name a).1.names.get ⟨ns', name'⟩ = none := by
        show (HMap.insert env.names _ _).get _ = _
        rw [HMap.get_insert]; simp only [hnk, if_false]
        cases hc : env.names.get ⟨ns', name'⟩ with
        | none => rfl
        | some k => exact absurd ((I.names _ _ _).1 hc) (hn k)
      simp [VarEnv.getByName, hget]
  · refine (List.perm_ext_iff_of_nodup ?_ ?_).2 ?_
    · exact nodup_currentVarIds ((ho2.map _).nodup_iff.2 I2.nodup_ids) _
    · exact nodup_currentVarIds ((ho1.map _).nodup_iff.2 I.nodup_ids) _
    · intro k; rw [mem_currentVarIds, mem_currentVarIds]
      exact exists_congr fun n => hmem n k
  · refine (List.perm_ext_iff_of_nodup ?_ ?_).2 ?_
    · exact nodup_currentVarNames (I2.ok.perm ho2) _
    · exact nodup_currentVarNames (I.ok.perm ho1) _
    · intro n; rw [mem_currentVarNames, mem_currentVarNames]
      exact exists_congr fun k => hmem n k

example : VarHist exVarHist exVarEnv ∧ nsB ≠ nsA ∧
    VarEnv.currentVarIds (exVarEnv.register nsA nmX 50).1.names nsB = [1] := ⟨exVarHist_ok, by decide, rfl⟩

/-- **C16** Updating an array found by its name in one namespace changes no value visible in another namespace, and no other name of the
same namespace; no name appears or disappears. -/
theorem C16_update_isolated (h : List (VarAction A)) (env env' : VarEnv A) (H : VarHist h env)
    (ns name : Str) (a : A) (hu : env.setByName ns name a = some env') :
    env'.names = env.names ∧
    env'.getByName ns name = .ok (some a) ∧
    ∀ ns' name' : Str, (ns', name') ≠ (ns, name) → env'.getByName ns' name' = env.getByName ns' name' := by
  have I := VarHist.inv H
  unfold VarEnv.setByName at hu
  cases hg : env.names.get ⟨ns, name⟩ with
  | none => simp [hg] at hu
  | some vid =>
    simp only [hg] at hu
    obtain ⟨hlt, rfl⟩ := setById_eq hu
    refine ⟨rfl, ?_, ?_⟩
    · simp [VarEnv.getByName, hg, hlt]
    · intro ns' name' hne
      unfold VarEnv.getByName
      cases hg' : env.names.get ⟨ns', name'⟩ with
      | none => rfl
      | some k =>
        have hk : vid ≠ k := by
          rintro rfl
          obtain ⟨h1, h2⟩ := isLatest_inj ((I.names _ _ _).1 hg) ((I.names _ _ _).1 hg')
          exact hne (by rw [h1, h2])
        simp [List.getElem?_set_ne hk]

example : VarHist exVarHist exVarEnv ∧
    exVarEnv.setByName nsA nmX 99 = some ⟨[11, 21, 99, 40], exVarEnv.names⟩ := ⟨exVarHist_ok, rfl⟩

/-- **C16** The ids and names listed for a namespace are exactly its currently valid registrations, each listed once, whatever the
iteration order of the map. -/
theorem C16_listing (h : List (VarAction A)) (env : VarEnv A) (H : VarHist h env) (ns : Str)
    (order : List (FullName × Nat)) (ho : order.Perm env.names) :
    (VarEnv.currentVarIds order ns).Nodup ∧
    (∀ k : Nat, k ∈ VarEnv.currentVarIds order ns ↔ ∃ name, IsLatest h ns name k) ∧
    (VarEnv.currentVarNames order ns).Nodup ∧
    (∀ name : Str, name ∈ VarEnv.currentVarNames order ns ↔ ∃ a, VarAction.register ns name a ∈ h) := by
  have I := VarHist.inv H
  refine ⟨nodup_currentVarIds ((ho.map _).nodup_iff.2 I.nodup_ids) _, ?_,
    nodup_currentVarNames (I.ok.perm ho) _, ?_⟩
  · intro k
    rw [mem_currentVarIds]
    exact exists_congr fun n => by rw [ho.mem_iff, I.mem]
  · intro name
    rw [mem_currentVarNames]
    obtain ⟨r, hr, h1, h2⟩ := C15_lookup_by_name h env H ns name
    constructor
    · rintro ⟨k, hk⟩
      by_contra hc
      have hr0 := h2.2 (fun a ha => hc ⟨a, ha⟩)
      have hl := (I.mem _ _ _).1 (ho.mem_iff.1 hk)
      have hlt := I.lt hl
      have := (h1 env.arrays[k]).2 ⟨k, hl, (I.values _ _).1 (List.getElem?_eq_getElem hlt)⟩
      rw [hr0] at this; cases this
    · rintro ⟨a, ha⟩
      cases r with
      | none => exact absurd ha (h2.1 rfl a)
      | some b =>
        obtain ⟨k, hk, _⟩ := (h1 b).1 rfl
        exact ⟨k, ho.mem_iff.2 ((I.mem _ _ _).2 hk)⟩

example : VarHist exVarHist exVarEnv ∧ VarEnv.currentVarIds exVarEnv.names nsA = [3, 2] ∧
    VarEnv.currentVarNames exVarEnv.names nsA = [nmY, nmX] := ⟨exVarHist_ok, rfl, rfl⟩

/-- **C16** Iterating over a namespace does not panic and lists every name registered in it, once, with the array a lookup by that name
gives. -/
theorem C16_namespace_iteration (h : List (VarAction A)) (env : VarEnv A) (H : VarHist h env) (ns : Str)
    (order : List (FullName × Nat)) (ho : order.Perm env.names) :
    ∃ l, env.iterNs ns order = .ok l ∧ (l.map (·.1)).Nodup ∧
      (∀ name : Str, name ∈ l.map (·.1) ↔ ∃ a, VarAction.register ns name a ∈ h) ∧
      ∀ p ∈ l, env.getByName ns p.1 = .ok (some p.2) := by
  have I := VarHist.inv H
  obtain ⟨l, h1, h2, h3⟩ := iterNs_ok (env := env) ns order (by
    intro e he hns
    have he' := ho.mem_iff.1 he
    have hl := (I.mem ns e.1.name e.2).1 (by rw [← hns]; exact he')
    rcases I.getByName ns e.1.name with ⟨k, a, _, _, hg⟩ | ⟨hn, _⟩
    · exact ⟨a, hg⟩
    · exact absurd hl (hn _))
  obtain ⟨_, _, hnd, hm⟩ := C16_listing h env H ns order ho
  exact ⟨l, h1, h2 ▸ hnd, h2 ▸ hm, h3⟩

example : VarHist exVarHist exVarEnv ∧ exVarEnv.iterNs nsA exVarEnv.names = .ok [(nmY, 40), (nmX, 30)] :=
  ⟨exVarHist_ok, rfl⟩

/-- **C16, C14** The tensor found by namespace and name in a graph is the (unique) tensor of the variable registered latest under them;
looking up a name that was never registered is a panic. -/
theorem C16_variable_by_name {Op : Type} (O : Ops Op) (g : Graph Op) (hg : Reachable O g)
    (h : List (VarAction A)) (env : VarEnv A) (H : VarHist h env) (ns name : Str) :
    (∀ (g' : Graph Op) (t : Nat), g.variableByName O.varOp env ns name = .ok (g', t) →
      ∃ k, IsLatest h ns name k ∧ (∃ n, g'.nodes[t]? = some n ∧ n.variableId = some k) ∧
        ∀ (u : Nat) (n : Node Op), g'.nodes[u]? = some n → n.variableId = some k → u = t) ∧
    ((∀ a : A, VarAction.register ns name a ∉ h) → g.variableByName O.varOp env ns name = .error .variableNotFound) := by
  have I := VarHist.inv H
  constructor
  · intro g' t ht
    unfold Graph.variableByName at ht
    cases hk : env.names.get ⟨ns, name⟩ with
    | none => simp [hk] at ht
    | some k =>
      simp only [hk] at ht
      refine ⟨k, (I.names _ _ _).1 hk, C14_variable_tensor_unique O g g' k t hg ht⟩
  · intro hno
    obtain ⟨r, hr, h1, h2⟩ := C15_lookup_by_name h env H ns name
    have hr0 := h2.2 hno
    subst hr0
    unfold Graph.variableByName
    cases hk : env.names.get ⟨ns, name⟩ with
    | none => rfl
    | some k =>
      have hl := (I.names _ _ _).1 hk
      have hlt := I.lt hl
      have := (h1 env.arrays[k]).2 ⟨k, hl, (I.values _ _).1 (List.getElem?_eq_getElem hlt)⟩
      cases this

example : VarHist exVarHist exVarEnv ∧ Reachable (⟨0, 1, 2, fun _ => 3⟩ : Ops Nat) (Graph.empty : Graph Nat) ∧
    ∃ g' : Graph Nat, (Graph.empty : Graph Nat).variableByName 1 exVarEnv nsA nmX = .ok (g', 0) :=
  ⟨exVarHist_ok, .init, _, rfl⟩

/-! ## C17 -/

/-- The environments `env` and `env'` hold the same arrays under the same ids, and the same names for the same ids. -/
def SameEnv (env env' : VarEnv A) : Prop :=
  (∀ k : Nat, env'.getById k = env.getById k) ∧ ∀ ns name : Str, env'.names.get ⟨ns, name⟩ = env.names.get ⟨ns, name⟩

/-- **C17 (exact condition)** Let every array survive the JSON encoding. Saving an environment and loading the file never panics and
never fails, and gives the environment back **if and only if** no namespace and no name contains the character U+0001. -/
theorem C17_save_load_iff {J : Type} (enc : A → J) (dec : J → Option A) (h : List (VarAction A)) (env : VarEnv A)
    (H : VarHist h env) (hdec : ∀ a ∈ env.arrays, dec (enc a) = some a)
    (o1 : List (FullName × Nat)) (ho1 : o1.Perm env.names)
    (o2 : List (Str × Nat)) (ho2 : o2.Perm (env.save enc o1).names) :
    ∃ env', VarEnv.load dec (env.save enc o1) o2 = .ok (some env') ∧
      (SameEnv env env' ↔ ∀ (ns name : Str) (a : A), VarAction.register ns name a ∈ h →
        Char.ofNat 1 ∉ ns ∧ Char.ofNat 1 ∉ name) := by
  have I := VarHist.inv H
  obtain ⟨es, hes, hload⟩ := load_save_ok hdec ho1 ho2
  refine ⟨_, hload, ?_⟩
  have hreg : ∀ ns name : Str, (∃ a : A, VarAction.register ns name a ∈ h) ↔
      ∃ k, env.names.get ⟨ns, name⟩ = some k := by
    intro ns name
    rw [← (C16_listing h env H ns env.names (List.Perm.refl _)).2.2.2 name, mem_currentVarNames]
    exact exists_congr fun k => HMap.mem_iff_get I.ok _ _
  constructor
  · rintro ⟨_, hs⟩ ns name a ha
    obtain ⟨k, hk⟩ := (hreg ns name).1 ⟨a, ha⟩
    have h1 : (HMap.collect es).get ⟨ns, name⟩ = some k := (hs ns name).trans hk
    have h2 := HMap.mem_of_get_collect h1
    have hF := parseNames_ok hes
    obtain ⟨i, hi⟩ := List.getElem?_of_mem h2
    have hilt : i < es.length := by
      by_contra hc; rw [List.getElem?_eq_none (by omega)] at hi; cases hi
    have hrel := List.forall₂_iff_get.1 hF |>.2 i (by rw [hF.length_eq]; exact hilt) hilt
    have hget : es.get ⟨i, hilt⟩ = ((⟨ns, name⟩ : FullName), k) := by
      rw [List.getElem?_eq_getElem hilt] at hi; exact Option.some.inj hi
    rw [hget] at hrel
    exact parseName_sepFree hrel.1
  · intro hfree
    refine ⟨fun k => rfl, ?_⟩
    intro ns name
    refine load_save_names I.ok ?_ ho1 ho2 hes _
    rintro ⟨⟨n, m⟩, v⟩ hm
    obtain ⟨a, ha⟩ := (hreg n m).2 ⟨v, (HMap.mem_iff_get I.ok _ _).1 hm⟩
    exact hfree n m a ha

example : ∃ env', VarEnv.load (fun j : Nat => some j) (exVarEnv.save id exVarEnv.names) (exVarEnv.save id exVarEnv.names).names =
      .ok (some env') ∧ SameEnv exVarEnv env' := by
  obtain ⟨env', h1, h2⟩ := C17_save_load_iff (A := Nat) id (fun j => some j) exVarHist exVarEnv exVarHist_ok (fun _ _ => rfl)
    exVarEnv.names (List.Perm.refl _) _ (List.Perm.refl _)
  refine ⟨env', h1, h2.2 ?_⟩
  intro ns name a ha
  simp only [exVarHist, List.mem_cons, VarAction.register.injEq, reduceCtorEq, List.not_mem_nil, or_false, false_or] at ha
  rcases ha with ⟨rfl, rfl, _⟩ | ⟨rfl, rfl, _⟩ | ⟨rfl, rfl, _⟩ | ⟨rfl, rfl, _⟩ <;> decide

/-- **C17 (part that holds)** If no namespace and no name contains U+0001 and every array survives the JSON encoding, then loading a
saved file, or initialising any existing environment from it, restores every array under its id and every name for its id, and nothing else.
Missing: names containing U+0001 (see `C17_violated`), and the JSON text format itself, which is an assumption (`hdec`). -/
theorem C17_save_load_partial {J : Type} (enc : A → J) (dec : J → Option A) (h : List (VarAction A)) (env : VarEnv A)
    (H : VarHist h env) (hdec : ∀ a ∈ env.arrays, dec (enc a) = some a)
    (hfree : ∀ (ns name : Str) (a : A), VarAction.register ns name a ∈ h → Char.ofNat 1 ∉ ns ∧ Char.ofNat 1 ∉ name)
    (o1 : List (FullName × Nat)) (ho1 : o1.Perm env.names)
    (o2 : List (Str × Nat)) (ho2 : o2.Perm (env.save enc o1).names) :
    (∃ env', VarEnv.load dec (env.save enc o1) o2 = .ok (some env') ∧ SameEnv env env') ∧
    ∀ old : VarEnv A, ∃ env', VarEnv.initializeFrom dec old (env.save enc o1) o2 = .ok (env', true) ∧ SameEnv env env' := by
  obtain ⟨env', h1, h2⟩ := C17_save_load_iff enc dec h env H hdec o1 ho1 o2 ho2
  refine ⟨⟨env', h1, h2.2 hfree⟩, fun old => ⟨env', ?_, h2.2 hfree⟩⟩
  simp [VarEnv.initializeFrom, h1]

example : VarHist exVarHist exVarEnv ∧ ∀ (ns name : Str) (a : Nat), VarAction.register ns name a ∈ exVarHist →
    Char.ofNat 1 ∉ ns ∧ Char.ofNat 1 ∉ name := by
  refine ⟨exVarHist_ok, ?_⟩
  intro ns name a ha
  simp only [exVarHist, List.mem_cons, VarAction.register.injEq, reduceCtorEq, List.not_mem_nil, or_false, false_or] at ha
  rcases ha with ⟨rfl, rfl, _⟩ | ⟨rfl, rfl, _⟩ | ⟨rfl, rfl, _⟩ | ⟨rfl, rfl, _⟩ <;> decide

/-- **C17 (violated)** There is an environment, with arrays that survive the encoding, for which loading the saved file succeeds but does not
give it back: the variable named `"x\u{1}y"` comes back under the name `"x"`. -/
theorem C17_violated :
    ∃ (h : List (VarAction Nat)) (env : VarEnv Nat), VarHist h env ∧
      ∃ env', VarEnv.load (fun j => some j) (env.save id env.names) (env.save id env.names).names = .ok (some env') ∧
        ¬ SameEnv env env' ∧ env.getByName [] "x".toList = .ok none ∧ env'.getByName [] "x".toList = .ok (some 7) := by
  refine ⟨[.register [] ['x', Char.ofNat 1, 'y'] 7], _, VarHist.register _ _ _ VarHist.new, ?_⟩
  refine ⟨⟨[7], [(⟨[], ['x']⟩, 0)]⟩, by rfl, ?_, by rfl, by rfl⟩
  rintro ⟨_, h⟩
  have := h [] ['x']
  revert this
  decide

/-- **C17** If some array does not survive the encoding (in JSON: an infinite or NaN element), loading reports an error, and `initialize`
then leaves the environment as it was. -/
theorem C17_undecodable {J : Type} (enc : A → J) (dec : J → Option A) (env old : VarEnv A) (a : A)
    (ha : a ∈ env.arrays) (hbad : dec (enc a) = none) (o1 : List (FullName × Nat)) (o2 : List (Str × Nat)) :
    VarEnv.load dec (env.save enc o1) o2 = .ok none ∧
    VarEnv.initializeFrom dec old (env.save enc o1) o2 = .ok (old, false) := by
  have h0 : VarEnv.decodeAll dec (env.save enc o1).arrays = none := decodeAll_none ha hbad
  have h1 : VarEnv.load dec (env.save enc o1) o2 = .ok none := by simp [VarEnv.load, h0]
  exact ⟨h1, by simp [VarEnv.initializeFrom, h1]⟩

example : (5 : Nat) ∈ (⟨[4, 5], []⟩ : VarEnv Nat).arrays ∧
    (fun j : Nat => if j = 5 then none else some j) (id 5) = none := ⟨by decide, rfl⟩

end Verif.Props
