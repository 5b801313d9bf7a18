import Verif.Lemmas.SafetyStep
/-!
# Read-only strings: one operation
-/
set_option linter.unusedSimpArgs false
set_option linter.unusedVariables false
namespace SPVM
namespace Safety
open Types Spec.Types Spec.Safety

/-- Only a `mutable string` can be assigned to a `mutable string`. -/
theorem mut_src {w : World} (hw : Wf w) {im : Bool} {d s : Ty} (hd : MutStr d) (hs : ¬ HasCat w s.bt .undef) (h : Assignable w im d s) : MutStr s := by
  have sc : HasCat w d.bt .string := (hw.string _).2 hd.1
  cases h with
  | undef h1 h2 => exact absurd h1 hs
  | same h1 h2 h3 h4 h5 => exact ⟨h2.symm.trans hd.1, h3.symm.trans hd.2.1, h5 hd.2.1 hd.2.2⟩
  | subclass h1 h2 h3 h4 h5 h6 h7 => have := hasCat_inj sc h5; cases this
  | iface h1 h2 h3 h4 h5 h6 => have := hasCat_inj sc h5; cases this
  | any h1 h2 h3 => have := hasCat_inj sc h1; cases this
  | anyArray h1 h2 h3 h4 => have := hasCat_inj sc h1; cases this

/-- New objects refer to nothing. -/
def NewOnly (h h' : List Obj) : Prop := ∃ e, h' = h ++ e ∧ ∀ ob ∈ e, ∀ f, ob.body = .inst f → ∀ k, f k = none

theorem newOnly_refl (h : List Obj) : NewOnly h h := ⟨[], by simp, by simp⟩

theorem newOnly_data (h : List Obj) (ob : Obj) {b d : Nat} {ro : Bool} {xs : List Nat} (e : ob = { bt := b, dim := d, ro := ro, body := .data xs }) :
    NewOnly h (h ++ [ob]) := by
  refine ⟨[ob], rfl, fun ob' hob f hf => ?_⟩
  rw [List.mem_singleton.1 hob, e] at hf
  cases hf

theorem bind_ok {α β : Type} {x : Out α} {f : α → Out β} {b : β} (h : (x >>= f) = .ok b) : ∃ a, x = .ok a ∧ f a = .ok b := by
  cases x with
  | ok a => exact ⟨a, rfl, h⟩
  | die m => cases h
  | ub => cases h

theorem castRef_new {P : Program} {h : List Obj} {op : CastOp} {v : Option Nat} {p : Option Nat × List Obj} (he : castRef P h op v = .ok p) : NewOnly h p.2 := by
  unfold castRef at he
  split at he
  · cases he; exact newOnly_refl h
  · cases he; exact newOnly_refl h
  · cases he; exact newOnly_refl h
  · obtain ⟨b, _, he⟩ := bind_ok he
    split at he
    · cases he; exact newOnly_refl h
    · cases he
  · cases he; exact newOnly_refl h
  · split at he
    · split at he
      · cases he
      · cases he; exact newOnly_refl h
    · cases he
  · split at he
    · split at he
      · cases he; exact newOnly_data h _ rfl
      · cases he
    · cases he
  · cases he; exact newOnly_refl h
  · split at he
    · split at he
      · cases he; exact newOnly_data h _ rfl
      · cases he
    · cases he
  · cases he

theorem eval_new {P : Program} {st : St} {r : Rhs} {p : Option Nat × List Obj} (he : eval P st r = .ok p) : NewOnly st.heap p.2 := by
  cases r with
  | undef => cases he; exact newOnly_refl _
  | var y => cases he; exact newOnly_refl _
  | lit l => cases he; exact newOnly_data _ _ rfl
  | field y k =>
    simp only [eval] at he
    split at he
    · cases he
    · split at he
      · split at he
        · split at he
          · cases he; exact newOnly_refl _
          · cases he
        · cases he
      · cases he
  | elem y i =>
    simp only [eval] at he
    split at he
    · cases he
    · split at he
      · split at he
        · split at he
          · cases he; exact newOnly_refl _
          · cases he
        · cases he
      · cases he
  | cast t y =>
    obtain ⟨op, _, h⟩ := bind_ok he
    exact castRef_new h
  | copy y =>
    simp only [eval] at he
    split at he
    · cases he; exact newOnly_refl _
    · split at he
      · split at he
        · cases he; exact newOnly_data _ _ rfl
        · cases he
      · cases he
  | concat y z =>
    obtain ⟨a, _, he⟩ := bind_ok he
    obtain ⟨b, _, he⟩ := bind_ok he
    cases he; exact newOnly_data _ _ rfl
  | newString l =>
    simp only [eval] at he
    split at he
    · cases he
    · cases he; exact newOnly_data _ _ rfl
  | newArray t l =>
    simp only [eval] at he
    split at he
    · cases he
    · cases he
      refine ⟨_, rfl, fun ob' hob f hf => ?_⟩
      rw [List.mem_singleton.1 hob] at hf
      simp only [newBody] at hf
      split at hf <;> cases hf
  | newObject c =>
    cases he
    refine ⟨_, rfl, fun ob' hob f hf k => ?_⟩
    rw [List.mem_singleton.1 hob] at hf
    cases hf; rfl

/-- An expression of the type `mutable string` does not yield a frozen string. -/
theorem eval_frozen {P : Program} (hP : WfProg P) {st : St} {j : Nat} {s : List Nat} (hf : Frozen P st j s) {x : Nat} {r : Rhs} {t : Ty} (ht : rhsType P r = some t)
    (hm : MutStr t) {p : Option Nat × List Obj} (he : eval P st r = .ok p) : p.1 ≠ some j := by
  have hw := hP.world
  have hlt : j < st.heap.length := (List.getElem?_eq_some_iff.1 hf.str).1
  have fresh : some st.heap.length ≠ some j := by simp; omega
  obtain ⟨m1, m2, m3⟩ := hm
  cases r with
  | undef => cases he; simp
  | var y => cases he; cases ht; exact hf.vars y ⟨m1, m2, m3⟩
  | lit l => cases ht; cases m3
  | field y k =>
    simp only [rhsType] at ht
    split at ht
    · cases ht
      simp only [eval] at he
      split at he
      · cases he
      · split at he
        · split at he
          · split at he
            · cases he
              exact hf.fields _ _ _ (by assumption) (by assumption) k ⟨m1, m2, m3⟩
            · cases he
          · cases he
        · cases he
    · cases ht
  | elem y i =>
    simp only [rhsType] at ht
    split at ht
    · cases ht; rw [elemTy_eq] at m3; cases m3
    · cases ht
  | cast d y =>
    simp only [rhsType] at ht
    split at ht
    · rename_i hcast
      cases ht
      have hr : t.ref = false := by
        cases hr : t.ref with
        | false => rfl
        | true => simp [isObject, isArray, isString, isClass, isInterface, isAnyObject, hr] at hcast
      have e1 : isNumeric t = false := by simp [isNumeric, btNumeric, m1]
      have e2 : isMulnum P.w t = false := by
        have : cat P.w 9 = .string := (hasCat_iff (by simp)).1 ((hw.string 9).2 rfl)
        simp [isMulnum, m1, this]
      have e3 : isNumericObject t = false := by simp [isNumericObject, btNumericObject, m1]
      have e4 : isString t = true := by simp [isString, m1, m2, hr]
      have ro : ∀ {p : Option Nat × List Obj}, castRef P st.heap .checkReadOnly (st.vars y) = .ok p → p.1 ≠ some j := by
        intro p h
        cases hv : st.vars y with
        | none => rw [hv] at h; cases h; simp
        | some i =>
          rw [hv] at h
          simp only [castRef] at h
          by_cases hij : i = j
          · subst hij
            simp [hf.str] at h
          · split at h
            · split at h
              · cases h
              · cases h; simpa using hij
            · cases h
      obtain ⟨op, h1, h2⟩ := bind_ok he
      unfold castOp at h1
      split at h1
      · rename_i hds
        cases h1; cases h2
        exact hf.vars y (by rw [← hds]; exact ⟨m1, m2, m3⟩)
      · split at h1
        · split at h1
          · cases h1; cases h2; simp
          · cases h1
        · rw [if_neg (by simp [e1]), if_neg (by simp [e2]), if_neg (by simp [e3]), m3] at h1
          split at h1
          · rename_i hs
            split at h1
            · cases h1; exact ro h2
            · rename_i hmm
              cases h1; cases h2
              simp only [isString, Bool.and_eq_true, beq_iff_eq] at hs
              exact hf.vars y ⟨hs.1.2, hs.1.1, by simpa using hmm⟩
          · split at h1
            · cases h1
              cases hv : st.vars y with
              | none => rw [hv] at h2; cases h2
              | some i =>
                rw [hv] at h2
                simp only [castRef] at h2
                split at h2
                · split at h2
                  · cases h2; exact fresh
                  · cases h2
                · cases h2
            · split at h1
              · cases h1; exact ro h2
              · split at h1
                · cases h1; unfold castRef at h2; split at h2 <;> simp_all
                · cases h1
    · cases ht
  | copy y =>
    simp only [eval] at he
    split at he
    · cases he; simp
    · split at he
      · split at he
        · cases he; exact fresh
        · cases he
      · cases he
  | concat y z =>
    simp only [rhsType] at ht
    split at ht
    · cases ht; cases m3
    · cases ht
  | newString l => cases ht; cases m3
  | newArray d l =>
    simp only [rhsType] at ht
    split at ht
    · cases ht; cases m3
    · cases ht
  | newObject c =>
    simp only [rhsType] at ht
    split at ht
    · cases ht; cases m3
    · cases ht

theorem frozen_put {P : Program} {st : St} {j : Nat} {s : List Nat} (hf : Frozen P st j s) {h : List Obj} (hn : NewOnly st.heap h) {x : Nat} {v : Option Nat}
    (hv : MutStr (P.vty x) → v ≠ some j) : Frozen P (st.put x v h) j s := by
  obtain ⟨e, rfl, hne⟩ := hn
  have hlt : j < st.heap.length := (List.getElem?_eq_some_iff.1 hf.str).1
  refine ⟨?_, fun y hy => ?_, fun i ob f hi hb k hk => ?_⟩
  · simp only [St.put]
    rw [List.getElem?_append_left hlt]; exact hf.str
  · simp only [St.put]
    split
    · rename_i hyx; subst hyx; exact hv hy
    · exact hf.vars y hy
  · simp only [St.put] at hi
    by_cases hl : i < st.heap.length
    · rw [List.getElem?_append_left hl] at hi
      exact hf.fields i ob f hi hb k hk
    · rw [List.getElem?_append_right (by omega)] at hi
      rw [hne ob (List.mem_of_getElem? hi) f hb k]
      simp

theorem frozen_set {P : Program} {st : St} {j : Nat} {s : List Nat} (hf : Frozen P st j s) {i : Nat} {ob ob' : Obj} (hi : st.heap[i]? = some ob) (hij : i ≠ j)
    (hb : ∀ f, ob'.body = .inst f → ∀ k, MutStr (P.fty k) → f k ≠ some j) : Frozen P { st with heap := st.heap.set i ob' } j s := by
  refine ⟨?_, hf.vars, fun l o f hl hb' k hk => ?_⟩
  · rw [List.getElem?_set_ne hij]; exact hf.str
  · by_cases hil : i = l
    · subst hil
      rw [List.getElem?_set_self (List.getElem?_eq_some_iff.1 hi).1] at hl
      cases hl
      exact hb f hb' k hk
    · rw [List.getElem?_set_ne hil] at hl
      exact hf.fields l o f hl hb' k hk

theorem setData_frozen {P : Program} {st : St} {j : Nat} {s : List Nat} (hf : Frozen P st j s) {v : Option Nat} (hv : v ≠ some j) {i : Int} {c : Nat} {st' : St}
    (he : (do let h ← setData st.heap v i c; .ok { st with heap := h }) = Out.ok st') : Frozen P st' j s := by
  obtain ⟨h, h1, h2⟩ := bind_ok he
  cases h2
  unfold setData at h1
  split at h1
  · cases h1
  · split at h1
    · split at h1
      · split at h1
        · cases h1
          refine frozen_set hf (by assumption) (fun e => hv (by rw [e])) (fun f hf => by cases hf)
        · cases h1
      · cases h1
    · cases h1

theorem step_frozen {P : Program} (hP : WfProg P) {st : St} (hs : TypeSafe P st) {i : Instr} (ha : accepts P i = true) (hi : WfInstr P.w i)
    (hsm : SameMut i) {j : Nat} {s : List Nat} (hf : Frozen P st j s) {st' : St} (he : exec P st i = .ok st') : Frozen P st' j s := by
  have hw := hP.world
  have hh : HeapOk P st.heap := hs.objs
  have nu : ∀ x, ¬ HasCat P.w (P.vty x).bt .undef := fun x => not_undef hw (hP.vars x).1 (hP.vars x).2
  cases i with
  | set x r =>
    simp only [accepts] at ha
    cases ht : rhsType P r with
    | none => rw [ht] at ha; cases ha
    | some t =>
      rw [ht] at ha
      simp only [yes_true] at ha
      obtain ⟨p, h1, h2⟩ := bind_ok he
      cases h2
      refine frozen_put hf (eval_new h1) fun hm => ?_
      by_cases hu : r = .undef
      · subst hu; cases h1; simp
      · obtain ⟨ws, os⟩ := rhs_type hP hi ht hu
        have hx := hP.vars x
        exact eval_frozen hP (x := x) hf ht (mut_src hw hm (not_undef hw ws os) ((c35_assignable_iff hw hx.1 ws).1.1 ⟨_, ha⟩)) h1
  | setField y k z =>
    simp only [accepts, Bool.and_eq_true, yes_true] at ha
    simp only [exec] at he
    split at he
    · cases he
    · rename_i i hv
      split at he
      · rename_i ob hob
        split at he
        · rename_i f hb
          split at he
          · cases he
            refine frozen_set hf hob (fun e => ?_) fun f' hf' l hl => ?_
            · subst e
              rw [hf.str] at hob; cases hob; cases hb
            · cases hf'
              by_cases hlk : l = k
              · subst hlk
                simp only [if_true]
                have h1 := hP.fields l
                have h2 := hP.vars z
                exact hf.vars z (mut_src hw hl (nu z) ((c35_assignable_iff hw h1.1 h2.1).1.1 ⟨_, ha.2⟩))
              · simp only [hlk, if_false]
                exact hf.fields i ob f hob hb l hl
          · cases he
        · cases he
      · cases he
  | setElem y i z =>
    simp only [exec] at he
    split at he
    · cases he
    · rename_i j' hj'
      split at he
      · rename_i ob hob
        split at he
        · rename_i xs hb
          split at he
          · have key : ∀ {c : Out Bool}, (do let b ← c; if b = true then Out.ok { st with heap := st.heap.set j' { ob with body := .refs (xs.set i.toNat (st.vars z)) } } else .die "The element type is not assignable.") = Out.ok st' → Frozen P st' j s := by
              intro c he
              obtain ⟨b, _, he⟩ := bind_ok he
              split at he
              · cases he
                refine frozen_set hf hob (fun e => ?_) fun f' hf' => by cases hf'
                subst e
                rw [hf.str] at hob; cases hob; cases hb
              · cases he
            split at he
            · exact key he
            · exact key he
          · cases he
        · cases he
      · cases he
  | setChar y i c =>
    simp only [accepts, isString, Bool.and_eq_true, beq_iff_eq] at ha
    exact setData_frozen hf (hf.vars y ⟨ha.1.1.2, ha.1.1.1, ha.2⟩) he
  | setNum y i c =>
    simp only [accepts] at ha
    refine setData_frozen hf (fun hv => ?_) he
    obtain ⟨ob, e, hfit⟩ := hs.vars y j hv
    obtain ⟨_, e2, _⟩ := nums_of hw (hh j ob e) (by simp [ha]) hfit
    rw [hf.str] at e; cases e; cases e2
  | makeReadOnly y =>
    simp only [exec] at he
    split at he
    · cases he
    · rename_i i hv
      split at he
      · rename_i ob hob
        cases he
        by_cases hij : i = j
        · subst hij
          have : st.heap.set i { ob with ro := true } = st.heap := by
            rw [hf.str] at hob; cases hob
            apply List.ext_getElem?
            intro l
            by_cases hl : i = l
            · subst hl
              rw [List.getElem?_set_self (List.getElem?_eq_some_iff.1 hf.str).1, hf.str]
            · rw [List.getElem?_set_ne hl]
          rw [this]
          exact hf
        · exact frozen_set hf hob hij fun f hb => hf.fields i ob f hob hb
      · cases he
  | memcpy y i xs =>
    simp only [exec] at he
    split at he
    · cases he
    · rename_i l hv
      split at he
      · rename_i ob hob
        split at he
        · rename_i ys hb
          split at he
          · cases he
          · rename_i hro
            split at he
            · cases he
              refine frozen_set hf hob (fun e => ?_) fun f' hf' => by cases hf'
              subst e
              rw [hf.str] at hob; cases hob; simp at hro
            · split at he
              · cases he; exact hf
              · split at he
                · cases he
                · cases he
        · cases he
      · cases he
  | pass dm sm k y p =>
    simp only [accepts] at ha
    cases hd : dm.args[k]? with
    | none => rw [hd] at ha; simp at ha
    | some dt =>
      cases hst : sm.args[k]? with
      | none => rw [hd, hst] at ha; simp at ha
      | some t =>
        rw [hd, hst] at ha
        simp only [Bool.and_eq_true, beq_iff_eq, yes_true] at ha
        obtain ⟨⟨h1, h2⟩, h3⟩ := ha
        have he' : st' = st.put p (st.vars y) st.heap := by
          simp only [exec] at he
          split at he
          · simp only [Out.ok_bind, if_true] at he; cases he; rfl
          · obtain ⟨b, _, he⟩ := bind_ok he
            split at he
            · cases he; rfl
            · cases he
        subst he'
        · refine frozen_put hf (newOnly_refl _) fun hm => ?_
          have hdt : MutStr dt := hsm dt t hd hst (by rw [h2]; exact hm)
          have wd : WfTy P.w dt := hi dt (List.mem_of_getElem? hd)
          exact hf.vars y (mut_src hw hdt (nu y) ((c35_assignable_iff hw wd (hP.vars y).1).1.1 ⟨_, h1⟩))
  | ret dm sm y x =>
    simp only [accepts, Bool.and_eq_true, yes_true] at ha
    obtain ⟨⟨h1, h2⟩, h3⟩ := ha
    cases he
    refine frozen_put hf (newOnly_refl _) fun hm => ?_
    have hx := hP.vars x
    have hy := hP.vars y
    have a1 := (c35_assignable_iff hw hi.2 hy.1).1.1 ⟨_, h1⟩
    have os := obj_up hi.2 hy.2 a1
    have hds : MutStr sm.ret := by
      rcases mayRun_ret hw h3 hi.1 hi.2 with e | e
      · rw [← e]
        rw [← e] at os
        exact mut_src hw hm (not_undef hw hi.1 os) ((c35_assignable_iff hw hx.1 hi.1).1.1 ⟨_, h2⟩)
      · have od := obj_up hi.1 os e
        exact mut_src hw (mut_src hw hm (not_undef hw hi.1 od) ((c35_assignable_iff hw hx.1 hi.1).1.1 ⟨_, h2⟩)) (not_undef hw hi.2 os) e
    exact hf.vars y (mut_src hw hds (nu y) a1)

end Safety
end SPVM
