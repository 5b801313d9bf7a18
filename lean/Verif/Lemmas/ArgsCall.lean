import Verif.Lemmas.ArgsCheck
/-!
# A whole call
-/
namespace SPVM
namespace Args
open Types (World Ty Cat cat isNumeric isMulnum isObject isUndef isVoid assign hasCat_iff facts TyFacts isObj_iff objB)
open Spec.Types (HasCat IsObj WfTy Wf Assignable Converts)
open Vars (VarKind Decl)
open Expr (NT Val Fl)
open Spec.Args
variable {φ : Type}

/-- The parameters of two methods have the same shapes, as far as both have parameters. -/
def SameShapes (E : Env) (ps qs : List (Param φ)) : Prop :=
  ∀ (j : Nat) (p q : Param φ), ps[j]? = some p → qs[j]? = some q → varKind E p.ty = varKind E q.ty ∧ width E p.ty = width E q.ty

theorem total_take_eq {E : Env} : ∀ (n : Nat) {ps qs : List (Param φ)}, SameShapes E ps qs → n ≤ ps.length → n ≤ qs.length →
    total E (ps.take n) = total E (qs.take n) := by
  intro n
  induction n with
  | zero => intro ps qs _ _ _; simp [total]
  | succ n ih =>
    intro ps qs h h1 h2
    cases ps with
    | nil => simp at h1
    | cons p ps =>
      cases qs with
      | nil => simp at h2
      | cons q qs =>
        simp only [List.take_succ_cons, total]
        rw [(h 0 p q rfl rfl).2, ih (fun j p' q' a b => h (j + 1) p' q' (by simpa using a) (by simpa using b)) (by simpa using h1) (by simpa using h2)]

theorem valueAt_eq {m : Mem φ} {k : VarKind} {i n : Nat} {f : Nat → V φ} (h : ∀ j, j < n → m k (i + j) = f j) :
    valueAt m k i n = (List.range n).map f := by
  unfold valueAt
  refine List.map_congr_left fun j hj => h j ?_
  simpa using hj

theorem valueAt_one (m : Mem φ) (k : VarKind) (i : Nat) : valueAt m k i 1 = [m k i] := rfl

theorem call_core {E : Env} (hE : EnvOk E) {F : Fl φ} (fits : Nat → Ty → Bool) {dm sm : Meth φ} {rd ra : List (Call.Arg Ty (Cell φ))}
    (hdm : checkMeth E F dm.params = .ok rd) (hsm : checkMeth E F sm.params = .ok ra)
    (vd : ∀ p ∈ dm.params, VarTy E.w p.ty) (vs : ∀ p ∈ sm.params, VarTy E.w p.ty ∧ p.ty.dim ≤ 2) (cs : ∀ p ∈ sm.params, ConstOk p)
    (hsh : SameShapes E dm.params sm.params) {as : List Term} (hlen : as.length ≤ dm.params.length) (hwf : ∀ a ∈ as, WfTy E.w a.ty)
    (hu : ∀ (j : Nat) (p : Param φ) (a : Term), dm.params[j]? = some p → as[j]? = some a → isUndef a.ty = true → IsObj E.w p.ty)
    (hreq : required sm.params ≤ as.length) {s : List (Cell φ)} (hs : 255 ≤ s.length) {vars : List Nat}
    (hvl : vars.length = sm.params.length) (hap : Apart E sm.params vars) (cm m : Mem φ) :
    (∃ m' s', call E F fits dm sm vars as cm m s = .ok (m', s') ∧ Bound E F sm.params vars as cm m m' ∧
      (sm.isClass = false → ¬ Misfit E fits sm.params as cm)) ∨
    (call E F fits dm sm vars as cm m s = .die msgArg ∧ sm.isClass = false ∧ Misfit E fits sm.params as cm) := by
  obtain ⟨-, wd, -⟩ := checkMeth_ok hdm
  obtain ⟨ra1, ws, ra3⟩ := checkMeth_ok hsm
  obtain ⟨code, s1, e1, e2, l1, a1, o1⟩ := setCode_ok hE cm dm.params as 0 s vd hlen hu (by omega) (by omega)
  simp only [Nat.zero_add] at e1 a1 o1
  have vs1 : ∀ p ∈ sm.params, VarTy E.w p.ty := fun p hp => (vs p hp).1
  -- the cells of the arguments, seen from the callee
  let g1 : Nat → Nat → Cell φ := fun j => match sm.params[j]?, as[j]? with
    | some p, some a => termCell E p.ty a cm
    | _, _ => fun _ => (.void, .obj none)
  have g1e : ∀ {j : Nat} {p : Param φ} {a : Term}, sm.params[j]? = some p → as[j]? = some a → g1 j = termCell E p.ty a cm := by
    intro j p a h1 h2
    simp only [g1, h1, h2]
  have f1 : ∀ (j : Nat) (p : Param φ), j < as.length → sm.params[j]? = some p → At s1 (0 + total E (sm.params.take j)) (width E p.ty) (g1 j) := by
    intro j p hj hp
    have la : as[j]? = some as[j] := List.getElem?_eq_getElem hj
    have hjs : j < sm.params.length := (List.getElem?_eq_some_iff.1 hp).1
    have hjd : j < dm.params.length := by omega
    have ld : dm.params[j]? = some dm.params[j] := List.getElem?_eq_getElem hjd
    have := a1 j _ _ ld la
    obtain ⟨k1, k2⟩ := hsh j _ _ ld hp
    rw [total_take_eq j hsh (by omega) (by omega), k2] at this
    rw [Nat.zero_add, g1e hp la]
    intro i hi
    rw [this i hi]
    simp only [termCell, k1]
  have below : Below E sm.params 0 as.length (total E (dm.params.take as.length)) := by
    refine ⟨fun j h1 h2 => ?_, fun j h1 h2 => ?_⟩
    · rw [Nat.zero_add, ← total_take_eq (j + 1) hsh (by omega) (by omega)]
      exact total_take_mono E _ (by omega)
    · rw [Nat.zero_add, total_take_eq as.length hsh (by omega) (by omega)]
      exact total_take_mono E _ h2
  obtain ⟨b, e3, hb⟩ := checkArgs_ok hE fits s1 (total E (dm.params.take as.length)) sm.params 0 as.length ra g1 ra1 below f1
  -- the test of the objects
  have misfit : Misfit E fits sm.params as cm ↔ b = false := by
    have : b = false ↔ ¬ b = true := by simp
    rw [this, hb]
    constructor
    · rintro ⟨j, p, a, o, hp, ha, ho, hpass, hf⟩ hall
      have hj : j < as.length := (List.getElem?_eq_some_iff.1 ha).1
      have hvp := vs1 p (List.mem_of_getElem? hp)
      have hc := hall j p hj hp ((Types.isObject_iff hE.types hvp.wf).2 ho)
      rw [g1e hp ha] at hc
      obtain ⟨k1, k2⟩ := shape_eq hE hvp (.obj ho)
      generalize hL : [V.obj (some o)] = L at hpass
      cases hpass with
      | undef h => cases hL
      | value h1 h2 =>
        obtain ⟨q1, q2⟩ := shape_eq hE hvp h2
        subst q1 q2
        rw [← k2, valueAt_one] at hL
        have hh : cm (varKind E p.ty) a.var = .obj (some o) := by simpa using hL.symm
        have hnu : isUndef a.ty = false := by
          have := fun h => h1 ((Types.isUndef_iff hE.types (hwf a (List.mem_of_getElem? ha))).1 h)
          simpa using this
        simp [termCell, hnu, cellFits, hh, hf] at hc
    · intro hn
      have : ∃ (j : Nat) (p : Param φ), j < as.length ∧ sm.params[j]? = some p ∧ isObject E.w p.ty = true ∧ cellFits fits (g1 j 0) p.ty = false := by
        apply Classical.byContradiction
        intro hne
        apply hn
        intro j p hj hp ho
        cases hc : cellFits fits (g1 j 0) p.ty with
        | true => rfl
        | false => exact absurd ⟨j, p, hj, hp, ho, hc⟩ hne
      obtain ⟨j, p, hj, hp, ho, hc⟩ := this
      have la : as[j]? = some as[j] := List.getElem?_eq_getElem hj
      have hvp := vs1 p (List.mem_of_getElem? hp)
      have ho' := (Types.isObject_iff hE.types hvp.wf).1 ho
      rw [g1e hp la] at hc
      obtain ⟨k1, k2⟩ := shape_eq hE hvp (.obj ho')
      by_cases hun : isUndef as[j].ty = true
      · simp [termCell, hun, cellFits] at hc
      · have hnu : ¬ HasCat E.w as[j].ty.bt .undef := fun h => hun ((Types.isUndef_iff hE.types (hwf _ (List.mem_of_getElem? la))).2 h)
        simp only [termCell, hun, cellFits, Nat.add_zero, Bool.false_eq_true, if_false] at hc
        cases hv : cm (varKind E p.ty) as[j].var with
        | num x => rw [hv] at hc; cases hc
        | ref x => rw [hv] at hc; cases hc
        | obj x =>
          rw [hv] at hc
          cases x with
          | none => cases hc
          | some o =>
            refine ⟨j, p, as[j], o, hp, la, ho', ?_, hc⟩
            have := Passed.value (E := E) (t := p.ty) (a := as[j]) (m := cm) hnu (.obj ho')
            rw [valueAt_one, k1, hv] at this
            exact this
  -- the frame of the callee
  obtain ⟨r1, r2, r3⟩ := required_spec sm.params
  have hdf : ∀ (j : Nat) (p : Param φ), as.length ≤ j → sm.params[j]? = some p → p.dflt ≠ none := by
    intro j p hj hp
    have hjl : j < sm.params.length := (List.getElem?_eq_some_iff.1 hp).1
    by_cases hjr : j = required sm.params
    · subst hjr; exact r3 p hp
    · have hlt : required sm.params < sm.params.length := by omega
      exact ra3 (required sm.params) j _ p (by omega) (List.getElem?_eq_getElem hlt) hp (r3 _ (List.getElem?_eq_getElem hlt))
  obtain ⟨s2, e4, l2, o2, f2⟩ := fillDefaults_ok hE (total E (dm.params.take as.length)) sm.params 0 as.length ra s1 ra1 below (by omega) hdf
  have e4' := (fillDefaults_drop hE (total E (dm.params.take as.length)) s1 (required sm.params) sm.params 0 as.length ra ra1 below hreq).trans e4
  let g2 : Nat → Nat → Cell φ := fun j => match as[j]?, sm.params[j]? with
    | some _, _ => g1 j
    | none, some p => match p.dflt with
      | some d => match dfltCell E F p.ty d with
        | .ok c => fun _ => c
        | _ => fun _ => (.void, .obj none)
      | none => fun _ => (.void, .obj none)
    | none, none => fun _ => (.void, .obj none)
  have g2a : ∀ {j : Nat} {a : Term}, as[j]? = some a → g2 j = g1 j := by intro j a h; simp only [g2, h]
  have g2d : ∀ {j : Nat} {p : Param φ} {d : Dflt φ} {c : Cell φ}, as[j]? = none → sm.params[j]? = some p → p.dflt = some d → dfltCell E F p.ty d = .ok c →
      g2 j = fun _ => c := by
    intro j p d c h1 h2 h3 h4; simp only [g2, h1, h2, h3, h4]
  have noArg : ∀ {j : Nat}, as[j]? = none → as.length ≤ j := fun h => List.getElem?_eq_none_iff.1 h
  have dspec : ∀ {j : Nat} {p : Param φ}, as[j]? = none → sm.params[j]? = some p → ∃ d x, p.dflt = some d ∧ Default E F p.ty d x ∧ width E p.ty = 1 ∧
      dfltCell E F p.ty d = .ok (varKind E p.ty, x) ∧ s2[0 + total E (sm.params.take j)]? = some (varKind E p.ty, x) := by
    intro j p h1 h2
    obtain ⟨d, c, h3, h4, h5⟩ := f2 j p (noArg h1) h2
    rcases dfltCell_spec hE F (vs1 p (List.mem_of_getElem? h2)) d (fun s x h => cs p (List.mem_of_getElem? h2) s x (by rw [h3, h])) with ⟨x, q1, q2, q3⟩ | ⟨⟨msg, q1⟩, -⟩
    · rw [h4] at q1
      cases q1
      exact ⟨d, x, h3, q2, q3, h4, h5⟩
    · rw [h4] at q1; cases q1
  have tag1 : ∀ {j : Nat} {p : Param φ} {a : Term} (i : Nat), sm.params[j]? = some p → as[j]? = some a → (termCell E p.ty a cm i).1 = varKind E p.ty := by
    intro j p a i hp ha
    unfold termCell
    by_cases hun : isUndef a.ty = true
    · have hj : j < as.length := (List.getElem?_eq_some_iff.1 ha).1
      have ld : dm.params[j]? = some (dm.params[j]'(by omega)) := List.getElem?_eq_getElem (by omega)
      rw [if_pos hun, ← (hsh j _ _ ld hp).1]
      exact (shape_eq hE (vd _ (List.mem_of_getElem? ld)) (.obj (hu j _ _ ld ha hun))).1
    · rw [if_neg hun]
  have tags : ∀ (j : Nat) (p : Param φ) (i : Nat), sm.params[j]? = some p → i < width E p.ty → (g2 j i).1 = varKind E p.ty := by
    intro j p i hp hi
    cases ha : as[j]? with
    | some a => rw [g2a ha, g1e hp ha]; exact tag1 i hp ha
    | none =>
      obtain ⟨d, x, h3, -, -, h4, -⟩ := dspec ha hp
      rw [g2d ha hp h3 h4]
  have f3 : ∀ (j : Nat) (p : Param φ), sm.params[j]? = some p → At s2 (0 + total E (sm.params.take j)) (width E p.ty) (g2 j) := by
    intro j p hp
    have hjl : j < sm.params.length := (List.getElem?_eq_some_iff.1 hp).1
    cases ha : as[j]? with
    | some a =>
      have hj : j < as.length := (List.getElem?_eq_some_iff.1 ha).1
      rw [g2a ha]
      refine (f1 j p hj hp).congr fun i h1 h2 => o2 i (.inr ?_)
      have := below.1 j hjl hj
      have ht : total E (sm.params.take (j + 1)) = total E (sm.params.take j) + width E p.ty := total_succ E sm.params j p hp
      omega
    | none =>
      obtain ⟨d, x, h3, -, h6, h4, h5⟩ := dspec ha hp
      rw [g2d ha hp h3 h4, h6]
      intro i hi
      have : i = 0 := by omega
      subst this
      exact h5
  obtain ⟨gc, m', e5, e6, b1, b2⟩ := getCode_ok hE s2 sm.params vars 0 g2 m vs hvl hap (by omega) f3 tags
  have run : call E F fits dm sm vars as cm m s = (do
      let s ← enter fits sm ra s1 (total E (dm.params.take as.length))
      let m ← execGets s gc m
      .ok (m, s)) := by
    simp only [call, hsm, e1, e2, e5, Out.ok_bind]
  have ent : enter fits sm ra s1 (total E (dm.params.take as.length)) = if sm.isClass = true ∨ b = true then .ok s2 else .die msgArg := by
    unfold enter
    cases hcl : sm.isClass with
    | true =>
      simp only [if_true, Out.ok_bind]
      rw [e4', if_pos (.inl trivial)]
    | false =>
      simp only [Bool.false_eq_true, if_false, e3, Out.ok_bind, false_or]
      rw [e4']
  by_cases hcase : sm.isClass = true ∨ b = true
  · left
    refine ⟨m', s2, ?_, ⟨?_, ?_, ?_⟩, ?_⟩
    · rw [run, ent, if_pos hcase]
      simp only [Out.ok_bind, e6]
    · intro j p v a hp hv ha
      have hvp := vs1 p (List.mem_of_getElem? hp)
      refine ⟨varKind E p.ty, width E p.ty, shape_of hE hvp, ?_⟩
      have hval : ∀ i, i < width E p.ty → m' (varKind E p.ty) (v + i) = (termCell E p.ty a cm i).2 := by
        intro i hi
        rw [b1 j p v i hp hv hi, g2a ha, g1e hp ha]
      rw [valueAt_eq hval]
      by_cases hun : isUndef a.ty = true
      · have hj : j < as.length := (List.getElem?_eq_some_iff.1 ha).1
        have ld : dm.params[j]? = some (dm.params[j]'(by omega)) := List.getElem?_eq_getElem (by omega)
        have h1 := (shape_eq hE (vd _ (List.mem_of_getElem? ld)) (.obj (hu j _ _ ld ha hun))).2
        rw [← (hsh j _ _ ld hp).2, ← h1]
        simp only [termCell, hun, if_true]
        exact .undef ((Types.isUndef_iff hE.types (hwf a (List.mem_of_getElem? ha))).1 hun)
      · simp only [termCell, hun, Bool.false_eq_true, if_false]
        exact .value (fun h => hun ((Types.isUndef_iff hE.types (hwf a (List.mem_of_getElem? ha))).2 h)) (shape_of hE hvp)
    · intro j p v hp hv ha
      obtain ⟨d, x, h3, h7, h6, h4, h5⟩ := dspec ha hp
      have hsh' := shape_of hE (vs1 p (List.mem_of_getElem? hp))
      rw [h6] at hsh'
      refine ⟨varKind E p.ty, d, x, hsh', h3, h7, ?_⟩
      have := b1 j p v 0 hp hv (by omega)
      rw [g2d ha hp h3 h4] at this
      exact this
    · intro k i h
      refine b2 k i fun j p v hp hv hh => ?_
      obtain ⟨rfl, h1, h2⟩ := hh
      exact h j p v (width E p.ty) hp hv (shape_of hE (vs1 p (List.mem_of_getElem? hp))) ⟨h1, h2⟩
    · intro hcl hmis
      rcases hcase with h | h
      · rw [hcl] at h; cases h
      · rw [misfit.1 hmis] at h; cases h
  · right
    have h1 : sm.isClass = false := by cases h : sm.isClass with | true => exact absurd (.inl h) hcase | false => rfl
    have h2 : b = false := by cases h : b with | true => exact absurd (.inr h) hcase | false => rfl
    refine ⟨?_, h1, misfit.2 h2⟩
    rw [run, ent, if_neg hcase]
    rfl

end Args
end SPVM
