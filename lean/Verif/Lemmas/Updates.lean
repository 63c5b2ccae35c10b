import Verif.Lemmas.EvalErrors
import Verif.Spec.Optimizers

/-! Executions in which the variables of one optimizer state are written by update ops only. -/

namespace Verif
open Spec Relation
variable {Op V E W : Type}

namespace Eval
open Graph

/-- A call of op `o` on a parameter, a gradient and `n` states makes exactly the writes of one transition `T`. -/
def UpdatesBy (S : Sem Op V E W) (o : Op) (n : Nat) (T : List V → V → List V → Prop) : Prop :=
  ∀ w xs w' ws ys st, xs.length = n + 2 → S.compute o w xs = .done w' ws ys st →
    ∃ p gx ss p' ss', xs = p :: gx :: ss ∧ T (p.val :: ss.map OpInput.val) gx.val (p' :: ss') ∧ ss'.length = ss.length ∧
      ∀ k v, (k, v) ∈ ws ↔ (k = 0 ∧ v = p') ∨ ∃ j, k = j + 2 ∧ ss'[j]? = some v

/-- A sequence of transitions. -/
def Steps (T : List V → V → List V → Prop) : List V → List V → List V → Prop
  | a, [], b => a = b
  | a, g :: gs, b => ∃ c, T a g c ∧ Steps T c gs b

theorem steps_append {T : List V → V → List V → Prop} : ∀ {gs gs' a b}, Steps T a (gs ++ gs') b ↔ ∃ c, Steps T a gs c ∧ Steps T c gs' b
  | [], gs', a, b => by simp [Steps]
  | g :: gs, gs', a, b => by
    simp only [List.cons_append, Steps, steps_append (gs := gs)]
    constructor
    · rintro ⟨c, h1, d, h2, h3⟩; exact ⟨d, ⟨c, h1, h2⟩, h3⟩
    · rintro ⟨d, ⟨c, h1, h2⟩, h3⟩; exact ⟨c, h1, d, h2, h3⟩

theorem steps_single {T : List V → V → List V → Prop} {g : V} {a b : List V} : Steps T a [g] b ↔ T a g b := by
  simp [Steps]

/-- The variables `vs` hold the arrays `vals`. -/
def Holds (env : List V) (vs : List Nat) (vals : List V) : Prop := List.Forall₂ (fun vid a => env[vid]? = some a) vs vals

theorem Holds.unique {env : List V} {vs : List Nat} {a b : List V} (h : Holds env vs a) (h' : Holds env vs b) : a = b := by
  unfold Holds at h h'
  induction h generalizing b with
  | nil => cases h'; rfl
  | cons h1 _ ih =>
    cases h' with
    | cons h2 h3 => rw [h1] at h2; cases h2; rw [ih h3]

theorem Holds.congr {env env' : List V} {vs : List Nat} {a : List V} (h : Holds env vs a) (he : ∀ vid ∈ vs, env'[vid]? = env[vid]?) :
    Holds env' vs a := by
  unfold Holds at h ⊢
  induction h with
  | nil => exact .nil
  | cons h1 _ ih =>
    exact .cons (by rw [he _ (by simp), h1]) (ih fun v hv => he v (by simp [hv]))

theorem mutVar_mem {g : Graph Op} {ss : List Incoming} {svs : List Nat} (h : List.Forall₂ (MutVar g) ss svs) :
    (∀ (j : Nat) (i : Incoming), ss[j]? = some i → ∃ v, svs[j]? = some v ∧ MutVar g i v) ∧ ss.length = svs.length := by
  refine ⟨fun j i hj => (forall₂_get h).2 j i hj, h.length_eq⟩

theorem inputIs_mutVar {shapeOf : V → List Nat} {g : Graph Op} {feeds : List (Feed V)} {env : List V}
    {cv : Nat → Except E (List V)} {i : Incoming} {x : OpInput V} {vid : Nat} (hm : MutVar g i vid)
    (h : InputIs shapeOf g feeds env cv i (.ok x)) : env[vid]? = some x.val ∧ x.kind = .rdWr := by
  obtain ⟨ha, m, hn, hp, hv⟩ := hm
  cases h with
  | placeholder hn' hf =>
    obtain ⟨nm, d, hp', _⟩ := hf
    rw [hn] at hn'; cases hn'; rw [hp] at hp'; cases hp'
  | variable_ hn' _ hv' he => rw [hn] at hn'; cases hn'; rw [hv] at hv'; cases hv'; simp [ha, he]
  | result ho => obtain ⟨m', hm', _, h2⟩ := ho; rw [hn] at hm'; cases hm'; rw [hv] at h2; cases h2

theorem inputsAre_holds {shapeOf : V → List Nat} {g : Graph Op} {feeds : List (Feed V)} {env : List V}
    {cv : Nat → Except E (List V)} : ∀ {ss : List Incoming} {svs : List Nat} {xs : List (OpInput V)},
    List.Forall₂ (MutVar g) ss svs → InputsAre shapeOf g feeds env cv ss (.ok xs) → Holds env svs (xs.map OpInput.val)
  | _, _, _, .nil, h => by cases h; exact .nil
  | _, _, _, .cons hm hms, h => by
    cases h with
    | cons a b => exact .cons (inputIs_mutVar hm a).1 (inputsAre_holds hms b)

theorem mutVar_unique {g : Graph Op} {i : Incoming} {v v' : Nat} (h : MutVar g i v) (h' : MutVar g i v') : v = v' := by
  obtain ⟨_, m, h1, _, h2⟩ := h
  obtain ⟨_, m', h1', _, h2'⟩ := h'
  rw [h1] at h1'; cases h1'; rw [h2] at h2'; exact Option.some.inj h2'

theorem writesVar_iff {g : Graph Op} {n : Node Op} {k vid : Nat} : WritesVar g n k vid ↔ ∃ i, n.incoming[k]? = some i ∧ MutVar g i vid := by
  constructor
  · rintro ⟨i, m, h1, h2, h3, h4, h5⟩; exact ⟨i, h1, h2, m, h3, h4, h5⟩
  · rintro ⟨i, h1, h2, m, h3, h4, h5⟩; exact ⟨i, m, h1, h2, h3, h4, h5⟩

theorem isUpdate_mayWrite {g : Graph Op} {o : Op} {pv : Nat} {svs : List Nat} {u : Nat} {gr : Incoming} (h : IsUpdate g o pv svs u gr)
    {vid : Nat} : MayWrite g u vid ↔ vid ∈ pv :: svs := by
  obtain ⟨n, p, ss, hn, _, hin, hp, hgr, hss⟩ := h
  constructor
  · rintro ⟨n', hn', i, hi, ha, m, hm, h1, h2⟩
    rw [hn] at hn'; cases hn'
    rw [hin] at hi
    have hmv : MutVar g i vid := ⟨ha, m, hm, h1, h2⟩
    rcases List.mem_cons.1 hi with rfl | hi
    · rw [mutVar_unique hmv hp]; simp
    rcases List.mem_cons.1 hi with rfl | hi
    · rw [hgr] at ha; cases ha
    obtain ⟨j, hj, hji⟩ := List.mem_iff_getElem.1 hi
    obtain ⟨v, hv, hm'⟩ := (mutVar_mem hss).1 j i (by rw [List.getElem?_eq_getElem hj, hji])
    rw [mutVar_unique hmv hm']
    exact List.mem_cons_of_mem _ (List.mem_of_getElem? hv)
  · intro hv
    have key : ∃ i ∈ n.incoming, MutVar g i vid := by
      rw [hin]
      rcases List.mem_cons.1 hv with rfl | hv
      · exact ⟨p, by simp, hp⟩
      · obtain ⟨j, hj, hji⟩ := List.mem_iff_getElem.1 hv
        have hj' : j < ss.length := by rw [hss.length_eq]; exact hj
        obtain ⟨v, hv', hm'⟩ := (mutVar_mem hss).1 j _ (List.getElem?_eq_getElem hj')
        rw [List.getElem?_eq_getElem hj, hji] at hv'
        cases hv'
        exact ⟨ss[j], by simp, hm'⟩
    obtain ⟨i, hi, ha, m, h1, h2, h3⟩ := key
    exact ⟨n, hn, i, hi, ha, m, h1, h2, h3⟩

/-- The variables after the writes of one update. -/
theorem envAfter_update {g : Graph Op} {n : Node Op} {pv : Nat} {svs : List Nat} {p gr : Incoming} {ss : List Incoming}
    (hnd : (pv :: svs).Nodup) (hin : n.incoming = p :: gr :: ss) (hp : MutVar g p pv) (hgr : gr.allowMut = false)
    (hss : List.Forall₂ (MutVar g) ss svs) {ws : List (Nat × V)} {env env' : List V} (he : EnvAfter g n ws env env')
    {p' : V} {ss' vals : List V} (hlen : ss'.length = svs.length) (hb : Holds env (pv :: svs) vals)
    (hws : ∀ k v, (k, v) ∈ ws ↔ (k = 0 ∧ v = p') ∨ ∃ j, k = j + 2 ∧ ss'[j]? = some v) :
    Holds env' (pv :: svs) (p' :: ss') := by
  have hw0 : ∀ k, WritesVar g n k pv → k = 0 := by
    intro k hk
    obtain ⟨i, hi, hm⟩ := writesVar_iff.1 hk
    rw [hin] at hi
    match k, hi with
    | 0, _ => rfl
    | 1, hi => simp at hi; subst hi; rw [hm.1] at hgr; cases hgr
    | j + 2, hi =>
      simp at hi
      obtain ⟨v, hv, hm'⟩ := (mutVar_mem hss).1 j i hi
      rw [mutVar_unique hm' hm] at hv
      exact absurd (List.mem_of_getElem? hv) (List.nodup_cons.1 hnd).1
  have hwj : ∀ (j vid : Nat), svs[j]? = some vid → ∀ k, WritesVar g n k vid → k = j + 2 := by
    intro j vid hj k hk
    obtain ⟨i, hi, hm⟩ := writesVar_iff.1 hk
    rw [hin] at hi
    match k, hi with
    | 0, hi =>
      simp at hi; subst hi
      rw [mutVar_unique hp hm] at hnd
      exact absurd (List.mem_of_getElem? hj) (List.nodup_cons.1 hnd).1
    | 1, hi => simp at hi; subst hi; rw [hm.1] at hgr; cases hgr
    | k + 2, hi =>
      simp at hi
      obtain ⟨v, hv, hm'⟩ := (mutVar_mem hss).1 k i hi
      rw [mutVar_unique hm' hm] at hv
      have hk' : k < svs.length := (List.getElem?_eq_some_iff.1 hv).1
      have := (List.nodup_iff_injective_getElem.1 (List.nodup_cons.1 hnd).2)
      have h1 := (List.getElem?_eq_some_iff.1 hv)
      have h2 := (List.getElem?_eq_some_iff.1 hj)
      obtain ⟨a1, b1⟩ := h1
      obtain ⟨a2, b2⟩ := h2
      have := @this ⟨k, a1⟩ ⟨j, a2⟩ (by simp [b1, b2])
      simp at this
      omega
  have hlt : ∀ vid ∈ pv :: svs, vid < env.length := by
    intro vid hv
    obtain ⟨j, hj, hji⟩ := List.mem_iff_getElem.1 hv
    obtain ⟨b, _, h2⟩ := (forall₂_get hb).2 j vid (by rw [List.getElem?_eq_getElem hj, hji])
    exact (List.getElem?_eq_some_iff.1 h2).1
  refine .cons ?_ ?_
  · rcases he.2 pv (hlt pv (by simp)) with ⟨pre, k, v, post, e, h1, _, h3⟩ | ⟨h1, _⟩
    · have := hw0 k h1
      subst this
      have hm := (hws 0 v).1 (by rw [e]; simp)
      rcases hm with ⟨_, rfl⟩ | ⟨j, hj, _⟩
      · exact h3
      · omega
    · exact absurd (writesVar_iff.2 ⟨p, by simp [hin], hp⟩) (h1 (0, p') ((hws 0 p').2 (.inl ⟨rfl, rfl⟩)))
  · rw [List.forall₂_iff_get]
    refine ⟨hlen.symm, fun j h1 h2 => ?_⟩
    simp only [List.get_eq_getElem]
    have hj : svs[j]? = some svs[j] := List.getElem?_eq_getElem h1
    rcases he.2 svs[j] (hlt _ (by simp)) with ⟨pre, k, v, post, e, h3, _, h4⟩ | ⟨h3, _⟩
    · have := hwj j _ hj k h3
      subst this
      have hm := (hws (j + 2) v).1 (by rw [e]; simp)
      rcases hm with ⟨h5, _⟩ | ⟨j', hj', h5⟩
      · omega
      · have : j' = j := by omega
        subst this
        rw [List.getElem?_eq_getElem h2] at h5
        cases h5
        exact h4
    · have hj' : j < ss.length := by rw [hss.length_eq]; exact h1
      obtain ⟨v, hv, hm'⟩ := (mutVar_mem hss).1 j _ (List.getElem?_eq_getElem hj')
      rw [hj] at hv; cases hv
      exact absurd (writesVar_iff.2 ⟨ss[j], by simp [hin], hm'⟩) (h3 (j + 2, ss'[j]) ((hws _ _).2 (.inr ⟨j, rfl, List.getElem?_eq_getElem h2⟩)))

theorem updateCalls_snoc {g : Graph Op} {o : Op} {pv : Nat} {svs : List Nat} {log : List (Nat × Bool)} {e : Nat × Bool} :
    (e.2 = true → (∃ gr, IsUpdate g o pv svs e.1 gr) → updateCalls g o pv svs (log ++ [e]) = updateCalls g o pv svs log ++ [e.1]) ∧
    (¬ (e.2 = true ∧ ∃ gr, IsUpdate g o pv svs e.1 gr) → updateCalls g o pv svs (log ++ [e]) = updateCalls g o pv svs log) := by
  unfold updateCalls
  constructor
  · intro h1 h2
    simp [List.filter_append, h1, h2]
  · intro h
    rw [List.filter_append, List.filter_cons, if_neg (by simpa using h)]
    simp

theorem inputRead_mono {S : Sem Op V E W} {g : Graph Op} {feeds : List (Feed V)} {env : List V} {w : W} {log : List (Nat × Bool)}
    {u : Nat} {i : Incoming} {x : V} (h : InputRead S g feeds env w log u i x) (l : List (Nat × Bool)) :
    InputRead S g feeds env w (log ++ l) u i x := by
  obtain ⟨pre, post, s1, cv, kind, rfl, h⟩ := h
  exact ⟨pre, post ++ l, s1, cv, kind, by simp, h⟩

/-- In an execution in which only update ops write to the variables of one optimizer state, these variables make one transition per call
of an update op, with the gradient that the call read. -/
theorem execList_updates {S : Sem Op V E W} {g : Graph Op} {feeds : List (Feed V)} {env : List V} {w : W} {o : Op} {pv : Nat} {svs : List Nat}
    (hnd : (pv :: svs).Nodup) {T : List V → V → List V → Prop} (hT : UpdatesBy S o svs.length T) {log : List (Nat × Bool)} {s' : ExecState V E W}
    (h : ExecList S g feeds (.start env w) log s')
    (hex : ∀ a vid, (a, true) ∈ log → vid ∈ pv :: svs → MayWrite g a vid → ∃ gr, IsUpdate g o pv svs a gr)
    {vals : List V} (hv : Holds env (pv :: svs) vals) :
    ∃ gs vals', GradsRead S g feeds env w o pv svs log gs ∧ Steps T vals gs vals' ∧ Holds s'.env (pv :: svs) vals' := by
  induction h with
  | nil => exact ⟨[], vals, by simp [GradsRead, updateCalls], rfl, hv⟩
  | @snoc l s1 e s2 hl h1 ih =>
    obtain ⟨gs, vals', hg, hs, hh⟩ := ih fun a vid ha => hex a vid (by simp [ha])
    have hg' : List.Forall₂ (fun u x => ∃ gr, IsUpdate g o pv svs u gr ∧ InputRead S g feeds env w (l ++ [e]) u gr x)
        (updateCalls g o pv svs l) gs :=
      List.Forall₂.imp (fun u x ⟨gr, a, b⟩ => ⟨gr, a, inputRead_mono b _⟩) hg
    cases h1 with
    | @run id n cv xs w1 ws ys st r env1 hn ho hcv hin hc hr he =>
      by_cases hup : ∃ gr, IsUpdate g o pv svs id gr
      · obtain ⟨gr, hup⟩ := hup
        have hup' := hup
        obtain ⟨n', p, ss, hn', hop, hinc, hp, hgr, hss⟩ := hup'
        rw [hn] at hn'; cases hn'
        rw [hop] at hc
        obtain ⟨xp, gx, xss, p', ss', hxs, ht, hlen, hws⟩ := hT _ _ _ _ _ _ (by rw [(inputsAre_ok_all hin).1, hinc, ← hss.length_eq]; rfl) hc
        subst hxs
        rw [hinc] at hin
        cases hin with
        | cons ha hb =>
          cases hb with
          | cons hb hd =>
            have hval : Holds s1.env (pv :: svs) (xp.val :: xss.map OpInput.val) :=
              .cons (inputIs_mutVar hp ha).1 (inputsAre_holds hss hd)
            have := hh.unique hval
            subst this
            refine ⟨gs ++ [gx.val], p' :: ss', ?_, ?_, ?_⟩
            · unfold GradsRead
              rw [updateCalls_snoc.1 rfl ⟨gr, hup⟩]
              refine List.rel_append hg' (.cons ⟨gr, hup, l, [], s1, cv, gx.kind, rfl, hl, hcv, hb⟩ .nil)
            · rw [steps_append]
              exact ⟨_, hs, steps_single.2 ht⟩
            · refine envAfter_update hnd hinc hp hgr hss he ?_ hh hws
              have := hval.length_eq
              simp at this
              omega
      · refine ⟨gs, vals', ?_, hs, ?_⟩
        · unfold GradsRead
          rw [updateCalls_snoc.2 (by simpa using hup)]
          exact hg'
        · refine hh.congr fun vid hvid => envAfter_frame hn he fun hmw => hup (hex id vid (by simp) hvid hmw)
    | skip hn ho hcv hin =>
      refine ⟨gs, vals', ?_, hs, hh⟩
      unfold GradsRead
      rw [updateCalls_snoc.2 (by simp)]
      exact hg'

/-- The gradients that were read are determined by the execution. -/
theorem gradsRead_unique {S : Sem Op V E W} {g : Graph Op} {feeds : List (Feed V)} {env : List V} {w : W} {o : Op} {pv : Nat} {svs : List Nat}
    {log : List (Nat × Bool)} (hnd : (log.map Prod.fst).Nodup) {gs gs' : List V}
    (h : GradsRead S g feeds env w o pv svs log gs) (h' : GradsRead S g feeds env w o pv svs log gs') : gs = gs' := by
  unfold GradsRead at h h'
  generalize updateCalls g o pv svs log = l at h h'
  induction h generalizing gs' with
  | nil => cases h'; rfl
  | cons a _ ih =>
    cases h' with
    | cons b hb =>
      rw [ih hb]
      congr 1
      obtain ⟨gr, ⟨n, p, ss, hn, _, hin, _⟩, pre, post, s1, cv, kind, e1, x1, c1, i1⟩ := a
      obtain ⟨gr', ⟨n', p', ss', hn', _, hin', _⟩, pre', post', s1', cv', kind', e2, x2, c2, i2⟩ := b
      rw [hn] at hn'; cases hn'
      rw [hin] at hin'; cases hin'
      have hpre : pre = pre' := by
        rw [e1] at hnd e2
        rcases List.append_eq_append_iff.1 e2 with ⟨m, h1, h2⟩ | ⟨m, h1, h2⟩
        · cases m with
          | nil => simpa using h1.symm
          | cons y m =>
            simp at h2
            subst h1
            rw [h2.2] at hnd
            simp [List.nodup_append] at hnd
        · cases m with
          | nil => simpa using h1
          | cons y m =>
            simp at h2
            subst h1
            rw [← h2.1] at hnd
            simp [List.nodup_append] at hnd
      subst hpre
      have hs := execList_det x1 x2
      subst hs
      have hcv : IsOp g gr.id → cv gr.id = cv' gr.id := by
        intro ho
        have hu : Uses g _ gr.id := ⟨⟨n, hn, gr, by simp [hin], rfl⟩, ho⟩
        have h1 := c1 _ hu
        rw [c2 _ hu] at h1
        exact (Option.some.inj h1).symm
      have := inputIs_unique hcv i1 i2
      simp at this
      exact this.2

end Eval
end Verif
