import Verif.Lemmas.ArgsCall
import Verif.Lemmas.TypesCheck
import Verif.Props.Logic
/-!
# C65: arguments, default values and return values of method calls
-/
namespace SPVM
namespace Args
open Types (World Ty Cat cat isNumeric isMulnum isObject isUndef isVoid assign hasCat_iff facts TyFacts isObj_iff objB builtins)
open Spec.Types (HasCat IsObj WfTy Wf Assignable Converts)
open Vars (VarKind Decl)
open Expr (NT Val Fl noFloat)
open Spec.Args
variable {φ : Type}

/-! ## The compiler's checks -/

/-- **C65.** A parameter list is accepted exactly if it keeps the documented rules; otherwise there is a compile error. -/
theorem method_accepts {E : Env} (hE : EnvOk E) (F : Fl φ) {ps : List (Param φ)} (hv : ∀ p ∈ ps, VarTy E.w p.ty) (hc : ∀ p ∈ ps, ConstOk p) :
    (∃ ra, checkMeth E F ps = .ok ra) ∧ ParamsOk E F ps ∨ (∃ msg, checkMeth E F ps = .die msg) ∧ ¬ ParamsOk E F ps := by
  rcases checkParams_total hE F ps false 0 hv hc with ⟨r, h⟩ | ⟨⟨msg, h⟩, hn⟩
  · obtain ⟨h1, h2, -, h4⟩ := checkParams_ok h
    by_cases hw : r.2 ≤ 255
    · refine .inl ⟨⟨r.1, by simp [checkMeth, h, hw]⟩, ?_, h4, total E ps, totalWidth_eq hE hv, by omega⟩
      exact rargs_defaults hE h1 hv hc
    · refine .inr ⟨⟨msgWidth, by simp [checkMeth, h, hw]⟩, fun hp => ?_⟩
      obtain ⟨n, ht, hle⟩ := hp.width
      have := totalWidth_unique hE ht hv
      omega
  · refine .inr ⟨⟨msg, by simp [checkMeth, h]⟩, fun hp => hn ⟨hp.defaults, by simp, hp.last⟩⟩

/-- **C65.** A call that is accepted has operands that fit the parameters, and as many as the method needs. -/
theorem call_accepted {E : Env} (hE : EnvOk E) {m : Meth φ} {ts : List (Ty × Bool)} {r : List Ty} (hv : ∀ p ∈ m.params, WfTy E.w p.ty)
    (ht : ∀ t ∈ ts, WfTy E.w t.1) (h : checkCall E m ts = .ok r) : CallOk E.w m.params ts := by
  unfold checkCall at h
  cases hc : checkTerms E m.params ts with
  | ok r' =>
    rw [hc] at h
    simp only [Out.ok_bind] at h
    obtain ⟨h1, -, h3⟩ := checkTerms_ok hE.types hv ht hc
    by_cases hl : ts.length < required m.params
    · rw [if_pos hl] at h; cases h
    · refine ⟨fun k hk => ?_, h1, h3⟩
      rw [required_unique hk (required_spec m.params)]
      omega
  | die msg => rw [hc] at h; cases h
  | ub => rw [hc] at h; cases h

/-- **C65.** A call that is rejected does not fit the parameters. -/
theorem call_rejected {E : Env} (hE : EnvOk E) {m : Meth φ} {ts : List (Ty × Bool)} {msg : String} (hv : ∀ p ∈ m.params, WfTy E.w p.ty)
    (ht : ∀ t ∈ ts, WfTy E.w t.1) (h : checkCall E m ts = .die msg) : ¬ CallOk E.w m.params ts := by
  unfold checkCall at h
  rintro ⟨h1, h2, h3⟩
  cases hc : checkTerms E m.params ts with
  | ok r' =>
    rw [hc] at h
    simp only [Out.ok_bind] at h
    have := h1 _ (required_spec m.params)
    rw [if_neg (by omega)] at h
    cases h
  | die msg => exact checkTerms_die hE.types hv ht hc ⟨h2, h3⟩
  | ub => rw [hc] at h; cases h

/-- **C65.** Every call that fits the parameters is accepted (if the compiler's recursion over the interfaces gets far enough). -/
theorem call_accepts {E : Env} (hE : EnvOk E) {m : Meth φ} {ts : List (Ty × Bool)} (hv : ∀ p ∈ m.params, WfTy E.w p.ty)
    (ht : ∀ t ∈ ts, WfTy E.w t.1) (h : CallOk E.w m.params ts) : ∃ N, ∀ n, N ≤ n → ∃ r, checkCall { E with n := n } m ts = .ok r := by
  obtain ⟨h1, h2, h3⟩ := h
  obtain ⟨N, hN⟩ := checkTerms_complete hE.types hv ht h2 h3
  refine ⟨N, fun n hn => ?_⟩
  obtain ⟨r, hr⟩ := hN n hn
  refine ⟨r, ?_⟩
  have := h1 _ (required_spec m.params)
  simp only [checkCall, hr, Out.ok_bind]
  rw [if_neg (by omega)]

/-! ## The call -/

theorem assignable_undef {w : World} (hw : Wf w) {im : Bool} {d s : Ty} (hd : VarTy w d) (h : Assignable w im d s) (hu : HasCat w s.bt .undef) : IsObj w d := by
  have key : ∀ {k : Cat}, HasCat w s.bt k → k = .undef ∨ k = .unknown := by
    intro k hk
    obtain ⟨b, h1, h2⟩ := hk
    obtain ⟨b', h3, h4⟩ := hu
    rw [h1] at h3; cases h3
    left; rw [← h2, h4]
  have obj : IsObj w s → 0 < s.dim := by
    rintro ⟨-, h | h | h | h | h⟩
    · exact h
    all_goals (rcases key h with h | h <;> cases h)
  cases h with
  | undef h1 h2 => exact h2
  | same h1 h2 h3 h4 h5 => rw [← h2] at hu; exact absurd hu h1
  | subclass h1 h2 h3 h4 h5 h6 => rcases key h6 with h | h <;> cases h
  | iface h1 h2 h3 h4 h5 h6 => rcases Types.Implements.src h6 with h | h <;> (rcases key h with h | h <;> cases h)
  | any h1 h2 h3 =>
    refine ⟨?_, .inr (.inr (.inr (.inr h1)))⟩
    cases hr : d.ref with
    | false => rfl
    | true =>
      have := (hd.wf.ref hr).2
      rw [hasCat_iff (by simp)] at h1
      rw [hasCat_iff (by simp), hasCat_iff (by simp), h1] at this
      simp at this
  | anyArray h1 h2 h3 h4 =>
    refine ⟨?_, .inl (by omega)⟩
    cases hr : d.ref with
    | false => rfl
    | true => have := (hd.wf.ref hr).1; omega

/-- What the check of a call leaves to the code generator. -/
theorem checked_terms {E : Env} (hE : EnvOk E) {m : Meth φ} (hv : ∀ p ∈ m.params, VarTy E.w p.ty) {ts : List (Ty × Bool)}
    (ht : ∀ t ∈ ts, WfTy E.w t.1) {as : List Term} (h : checkCall E m ts = .ok (as.map Term.ty)) :
    as.length ≤ m.params.length ∧ required m.params ≤ as.length ∧ (∀ a ∈ as, WfTy E.w a.ty) ∧
    ∀ (j : Nat) (p : Param φ) (a : Term), m.params[j]? = some p → as[j]? = some a → isUndef a.ty = true → IsObj E.w p.ty := by
  unfold checkCall at h
  cases hc : checkTerms E m.params ts with
  | ok r =>
    rw [hc] at h
    simp only [Out.ok_bind] at h
    obtain ⟨h1, ⟨h2, h3⟩, -⟩ := checkTerms_ok hE.types (fun p hp => (hv p hp).wf) ht hc
    by_cases hl : ts.length < required m.params
    · rw [if_pos hl] at h; cases h
    · rw [if_neg hl] at h
      cases h
      simp only [List.length_map] at h2
      have both : ∀ (j : Nat) (a : Term), as[j]? = some a → ∃ p t, m.params[j]? = some p ∧ ts[j]? = some t ∧
          (a.ty = t.1 ∧ Assignable E.w false p.ty t.1 ∨ a.ty = p.ty) := by
        intro j a ha
        have hj : j < as.length := (List.getElem?_eq_some_iff.1 ha).1
        have l1 : m.params[j]? = some (m.params[j]'(by omega)) := List.getElem?_eq_getElem (by omega)
        have l2 : ts[j]? = some (ts[j]'(by omega)) := List.getElem?_eq_getElem (by omega)
        exact ⟨_, _, l1, l2, h3 j _ _ a.ty l1 l2 (by simp [ha])⟩
      refine ⟨by omega, by omega, ?_, ?_⟩
      · intro a ha
        obtain ⟨j, hj, rfl⟩ := List.getElem_of_mem ha
        obtain ⟨p, t, k1, k2, k3⟩ := both j _ (List.getElem?_eq_getElem hj)
        rcases k3 with ⟨k3, -⟩ | k3
        · rw [k3]; exact ht t (List.mem_of_getElem? k2)
        · rw [k3]; exact (hv p (List.mem_of_getElem? k1)).wf
      · intro j p a hp ha hu
        obtain ⟨p', t, k1, k2, k3⟩ := both j a ha
        rw [hp] at k1
        cases k1
        have hvp := hv p (List.mem_of_getElem? hp)
        rcases k3 with ⟨k3, k4⟩ | k3
        · refine assignable_undef hE.types hvp k4 ?_
          rw [k3] at hu
          exact (Types.isUndef_iff hE.types (ht t (List.mem_of_getElem? k2))).1 hu
        · rw [k3] at hu
          exact absurd ((Types.isUndef_iff hE.types hvp.wf).1 hu) hvp.undef
  | die msg => rw [hc] at h; cases h
  | ub => rw [hc] at h; cases h

/-- **C65.** In a call of a known method every parameter starts with the value of its argument, or with its default if the
argument is omitted, and the other variables of the new frame are not touched; an instance method is not entered exactly if
one of the objects is not of the type of its parameter.  Missing: parameters that are arrays of more than two dimensions, see
`three_dimensions_violated`. -/
theorem call_binds_partial {E : Env} (hE : EnvOk E) {F : Fl φ} (fits : Nat → Ty → Bool) {m : Meth φ} (hm : ∃ ra, checkMeth E F m.params = .ok ra)
    (hv : ∀ p ∈ m.params, VarTy E.w p.ty ∧ p.ty.dim ≤ 2) (hc : ∀ p ∈ m.params, ConstOk p) {ts : List (Ty × Bool)} (ht : ∀ t ∈ ts, WfTy E.w t.1)
    {as : List Term} (ha : checkCall E m ts = .ok (as.map Term.ty)) (others : List Decl) (cm m0 : Mem φ) {s : List (Cell φ)} (hs : 255 ≤ s.length) :
    (∃ m' s', call E F fits m m (paramVars E m.params others) as cm m0 s = .ok (m', s') ∧
      Bound E F m.params (paramVars E m.params others) as cm m0 m' ∧ (m.isClass = false → ¬ Misfit E fits m.params as cm)) ∨
    (call E F fits m m (paramVars E m.params others) as cm m0 s = .die msgArg ∧ m.isClass = false ∧ Misfit E fits m.params as cm) := by
  obtain ⟨ra, hm⟩ := hm
  have hv1 : ∀ p ∈ m.params, VarTy E.w p.ty := fun p hp => (hv p hp).1
  obtain ⟨h1, h2, h3, h4⟩ := checked_terms hE hv1 ht ha
  obtain ⟨v1, v2⟩ := paramVars_ok hE m.params others hv1
  exact call_core hE fits hm hm hv1 hv hc (fun j p q a b => by rw [a] at b; cases b; exact ⟨rfl, rfl⟩) h1 h3 h4 h2 hs v1 v2 cm m0

/-- **C65.** The same for a call of an instance method through an interface or a super class: the caller was compiled for `dm`,
the object's method is `sm`.  Missing: arrays of more than two dimensions, and arguments that are omitted although `sm` needs them, see
`optional_override_violated`. -/
theorem dispatch_binds_partial {E : Env} (hE : EnvOk E) {F : Fl φ} (fits : Nat → Ty → Bool) {dm sm : Meth φ} (hdm : ∃ ra, checkMeth E F dm.params = .ok ra)
    (hsm : ∃ ra, checkMeth E F sm.params = .ok ra) (ho : Overrides E dm sm) (hd : ∀ p ∈ dm.params, VarTy E.w p.ty)
    (hv : ∀ p ∈ sm.params, VarTy E.w p.ty ∧ p.ty.dim ≤ 2) (hc : ∀ p ∈ sm.params, ConstOk p) {ts : List (Ty × Bool)} (ht : ∀ t ∈ ts, WfTy E.w t.1)
    {as : List Term} (ha : checkCall E dm ts = .ok (as.map Term.ty)) (hr : ∀ r, IsRequired sm.params r → r ≤ as.length)
    (others : List Decl) (cm m0 : Mem φ) {s : List (Cell φ)} (hs : 255 ≤ s.length) :
    (∃ m' s', call E F fits dm sm (paramVars E sm.params others) as cm m0 s = .ok (m', s') ∧
      Bound E F sm.params (paramVars E sm.params others) as cm m0 m' ∧ ¬ Misfit E fits sm.params as cm) ∨
    (call E F fits dm sm (paramVars E sm.params others) as cm m0 s = .die msgArg ∧ Misfit E fits sm.params as cm) := by
  obtain ⟨rd, hdm⟩ := hdm
  obtain ⟨ra, hsm⟩ := hsm
  have hv1 : ∀ p ∈ sm.params, VarTy E.w p.ty := fun p hp => (hv p hp).1
  obtain ⟨h1, h2, h3, h4⟩ := checked_terms hE hd ht ha
  obtain ⟨v1, v2⟩ := paramVars_ok hE sm.params others hv1
  have hsh : SameShapes E dm.params sm.params := by
    intro j p q hp hq
    have hp' := hd p (List.mem_of_getElem? hp)
    have hq' := hv1 q (List.mem_of_getElem? hq)
    cases j with
    | zero =>
      obtain ⟨x1, x2⟩ := shape_eq hE hp' (.obj (ho.selfs p (.inl hp)))
      obtain ⟨y1, y2⟩ := shape_eq hE hq' (.obj (ho.selfs q (.inr hq)))
      exact ⟨by rw [← x1, ← y1], by rw [← x2, ← y2]⟩
    | succ j => exact shape_assign hE hp' hq' (ho.args (j + 1) p q (by omega) hp hq)
  rcases call_core hE fits hdm hsm hd hv hc hsh h1 h3 h4 (hr _ (required_spec _)) hs v1 v2 cm m0 with ⟨m', s', e, b, f⟩ | ⟨e, -, f⟩
  · exact .inl ⟨m', s', e, b, f ho.smInstance⟩
  · exact .inr ⟨e, f⟩

/-- The signature of a method (Model/Types.lean). -/
def sig (name : VM.Bytes) (q : Bool) (m : Meth φ) : Types.Method := ⟨name, m.isClass, q, m.params.map Param.ty, required m.params, m.ret⟩

/-- **C65.** The test of a method against the one of an interface or a super class guarantees what the dispatch needs. -/
theorem override_checked {E : Env} (hE : EnvOk E) {dm sm : Meth φ} (hd : ∀ p ∈ dm.params, WfTy E.w p.ty) (hs : ∀ p ∈ sm.params, WfTy E.w p.ty)
    (hdr : WfTy E.w dm.ret) (hsr : WfTy E.w sm.ret) (self : ∀ p, dm.params[0]? = some p ∨ sm.params[0]? = some p → IsObj E.w p.ty)
    {name : VM.Bytes} {q q' : Bool} (h : Types.satisfyMethod (assign E.w E.n false true) (sig name q dm) (sig name q' sm) = .ok true) :
    Overrides E dm sm := by
  rw [Types.satisfyMethod_true] at h
  obtain ⟨h1, h2, -, h4, h5⟩ := h
  refine ⟨h2, h1, self, ?_, ?_⟩
  · intro j p q hj hp hq
    refine Types.assign_sub (n := E.n) hE.types (Types.hasInterface_sound hE.types E.n) (hd p (List.mem_of_getElem? hp)) (hs q (List.mem_of_getElem? hq)) ?_
    exact h4 j p.ty q.ty hj (by simp [sig, hp]) (by simp [sig, hq])
  · exact Types.assign_sub (n := E.n) hE.types (Types.hasInterface_sound hE.types E.n) hdr hsr h5

/-! ## Return values -/

/-- **C65.** The variable that a call is assigned to gets the value of the operand of `return`, and no other variable of the caller
changes.  Missing: multi-numeric types with more than 255 fields, see `wide_return_violated`. -/
theorem return_value_partial {E : Env} (hE : EnvOk E) {dm sm : Meth φ} (hd : VarTy E.w dm.ret) (hs : VarTy E.w sm.ret) (hdr : dm.ret.ref = false)
    (hsr : sm.ret.ref = false) {im : Bool} (ho : dm = sm ∨ Assignable E.w im dm.ret sm.ret) (hw : ∀ k n, Shape E dm.ret k n → n ≤ 255)
    {t : Ty} {narrow : Bool} (ht : WfTy E.w t) {a : Term} (ha : checkAssign E sm.ret t narrow = .ok a.ty) (var : Nat) (m cm : Mem φ)
    {s : List (Cell φ)} (hl : 255 ≤ s.length) :
    ∃ m' k n, callReturn E dm sm a var m cm s = .ok m' ∧ Shape E dm.ret k n ∧ Passed E sm.ret a m (valueAt m' k var n) ∧
      ∀ k' i, ¬ (k' = k ∧ var ≤ i ∧ i < var + n) → m' k' i = cm k' i := by
  obtain ⟨-, hat⟩ := checkAssign_ok hE.types hs.wf ht ha
  have hta : WfTy E.w a.ty := by
    rcases hat with ⟨h, -⟩ | h
    · rw [h]; exact ht
    · rw [h]; exact hs.wf
  have hsame : varKind E dm.ret = varKind E sm.ret ∧ width E dm.ret = width E sm.ret := by
    rcases ho with h | h
    · rw [h]; exact ⟨rfl, rfl⟩
    · exact shape_assign hE hd hs h
  have hwd := hw _ _ (shape_of hE hd)
  have hu : isUndef a.ty = true → IsObj E.w sm.ret := by
    intro h
    rcases hat with ⟨e, h1⟩ | e
    · refine assignable_undef hE.types hs h1 ?_
      rw [e] at h
      exact (Types.isUndef_iff hE.types ht).1 h
    · rw [e] at h
      exact absurd ((Types.isUndef_iff hE.types hs.wf).1 h) hs.undef
  -- the callee
  have callee : ∃ s', execReturn E sm.ret a m s = .ok s' ∧ At s' 0 (width E sm.ret) (termCell E sm.ret a m) := by
    have one : ∀ (c : Cell φ), width E sm.ret = 1 → termCell E sm.ret a m 0 = c → At (s.set 0 c) 0 (width E sm.ret) (termCell E sm.ret a m) := by
      intro c h1 h2 i hi
      have : i = 0 := by omega
      subst this
      rw [List.getElem?_set_self (by omega), h2]
    unfold execReturn
    by_cases hua : isUndef a.ty = true
    · obtain ⟨-, hw⟩ := shape_eq hE hs (.obj (hu hua))
      exact ⟨s.set 0 (.object, .obj none), by rw [if_pos hua, put_ok (by omega)], one _ hw.symm (by simp [termCell, hua])⟩
    · have tc : ∀ i, termCell E sm.ret a m i = (varKind E sm.ret, m (varKind E sm.ret) (a.var + i)) := by intro i; simp [termCell, hua]
      rw [if_neg hua]
      cases sorted hE hs with
      | num h1 h2 h3 h4 _ h5 h6 =>
        have hk : varKind E sm.ret = numKind sm.ret.bt := by simp [varKind, h1, h4, h5, h6]
        exact ⟨s.set 0 (numKind sm.ret.bt, m (numKind sm.ret.bt) a.var), by rw [if_pos h1, put_ok (by omega)],
          one _ (by simp [width, h6]) (by rw [tc, hk]; rfl)⟩
      | obj h1 h2 h3 h4 h5 =>
        have hk : varKind E sm.ret = .object := by simp [varKind, h1]
        exact ⟨s.set 0 (.object, m .object a.var), by simp [h1, h4, put_ok (show 0 < s.length by omega)], one _ (by simp [width, h5]) (by rw [tc, hk]; rfl)⟩
      | ref h1 h2 h3 h4 h5 h6 => rw [hsr] at h1; cases h1
      | mul h1 h2 h3 h4 h5 h6 h7 =>
        have hk : varKind E sm.ret = (E.mul sm.ret.bt).1 := by simp [varKind, h1, h4, h6]
        have hb : a.ty.bt = sm.ret.bt := by
          rcases hat with ⟨e, k⟩ | e
          · rw [e]
            cases k with
            | undef g1 g2 =>
              rw [Types.isUndef_iff hE.types hta, e] at hua
              exact absurd g1 hua
            | same g1 g2 g3 g4 g5 => exact g2.symm
            | subclass g1 g2 g3 g4 g5 g6 =>
              have : isObject E.w sm.ret = true := (Types.isObject_iff hE.types hs.wf).2 ⟨g1, .inr (.inr (.inl g5))⟩
              rw [this] at h6; cases h6
            | iface g1 g2 g3 g4 g5 g6 =>
              have : isObject E.w sm.ret = true := (Types.isObject_iff hE.types hs.wf).2 ⟨g1, .inr (.inr (.inr (.inl g5)))⟩
              rw [this] at h6; cases h6
            | any g1 g2 g3 =>
              have : isObject E.w sm.ret = true := (Types.isObject_iff hE.types hs.wf).2 ⟨hsr, .inr (.inr (.inr (.inr g1)))⟩
              rw [this] at h6; cases h6
            | anyArray g1 g2 g3 g4 =>
              have : isObject E.w sm.ret = true := (Types.isObject_iff hE.types hs.wf).2 ⟨hsr, .inl (by omega)⟩
              rw [this] at h6; cases h6
          · rw [e]
        obtain ⟨s', e, -, r2, -⟩ := putMul_ok m (E.mul a.ty.bt).1 a.var 0 (width E sm.ret) s (by omega)
        refine ⟨s', by simp [h1, h6, h7, e], ?_⟩
        intro i hi
        rw [tc, hk, ← hb]
        exact r2 i hi
  obtain ⟨s', e1, at1⟩ := callee
  have tag : ∀ i, (termCell E sm.ret a m i).1 = varKind E dm.ret := by
    intro i
    unfold termCell
    by_cases hua : isUndef a.ty = true
    · rw [if_pos hua, hsame.1]; exact (shape_eq hE hs (.obj (hu hua))).1
    · rw [if_neg hua]; exact hsame.1.symm
  rw [← hsame.2] at at1
  have caller : ∃ o m', retOp E dm.ret var = .ok (some o) ∧ execGet s' cm o = .ok m' ∧
      (∀ i, i < width E dm.ret → m' (varKind E dm.ret) (var + i) = (termCell E sm.ret a m i).2) ∧
      ∀ k i, ¬ (k = varKind E dm.ret ∧ var ≤ i ∧ i < var + width E dm.ret) → m' k i = cm k i := by
    have hpos := width_pos hE (t := dm.ret)
    have one : width E dm.ret = 1 → ∃ m', execGet s' cm (.get (varKind E dm.ret) var 0) = .ok m' ∧
        (∀ i, i < width E dm.ret → m' (varKind E dm.ret) (var + i) = (termCell E sm.ret a m i).2) ∧
        ∀ k i, ¬ (k = varKind E dm.ret ∧ var ≤ i ∧ i < var + width E dm.ret) → m' k i = cm k i := by
      intro hw
      have hr := read_ok (at1 0 (by omega))
      rw [tag 0] at hr
      refine ⟨cm.set (varKind E dm.ret) var (termCell E sm.ret a m 0).2, by simp only [execGet, Nat.zero_mod]; rw [hr]; rfl, ?_, ?_⟩
      · intro i hi
        have : i = 0 := by omega
        subst this
        simp [Mem.set]
      · intro k i h
        simp only [Mem.set]
        rw [if_neg]
        rintro ⟨rfl, rfl⟩
        exact h ⟨rfl, by omega, by omega⟩
    cases sorted hE hd with
    | num h1 h2 h3 h4 _ h5 h6 h7 h8 =>
      have hk : varKind E dm.ret = numKind dm.ret.bt := by simp [varKind, h1, h4, h5, h6]
      obtain ⟨m', r⟩ := one (by simp [width, h6])
      refine ⟨_, m', ?_, r⟩
      simp [retOp, h1, hk]
    | obj h1 h2 h3 h4 h5 =>
      have hk : varKind E dm.ret = .object := by simp [varKind, h1]
      obtain ⟨m', r⟩ := one (by simp [width, h5])
      refine ⟨_, m', ?_, r⟩
      have hnv : isVoid dm.ret = false := by
        have := fun h => hd.void ((isVoid_iff hE.types hd.wf).1 h)
        simpa using this
      simp [retOp, h1, h4, hnv, hk]
    | ref h1 h2 h3 h4 h5 h6 => rw [hdr] at h1; cases h1
    | mul h1 h2 h3 h4 h5 h6 h7 =>
      have hk : varKind E dm.ret = (E.mul dm.ret.bt).1 := by simp [varKind, h1, h4, h6]
      have hnv : isVoid dm.ret = false := by
        have := fun h => hd.void ((isVoid_iff hE.types hd.wf).1 h)
        simpa using this
      obtain ⟨m', e, r1, r2⟩ := getMul_ok (var := var) (width E dm.ret) cm at1 (fun i _ => tag i)
      refine ⟨.mul (E.mul dm.ret.bt).1 var (width E dm.ret * 256), m', ?_, ?_, r1, r2⟩
      · have : width E dm.ret * 256 % 65536 = width E dm.ret * 256 := Nat.mod_eq_of_lt (by omega)
        simp [retOp, h1, h6, h7, hnv, this]
      · simp only [execGet]
        rw [Nat.mul_mod_left, Nat.mul_div_cancel _ (by omega), ← hk]
        exact e
  obtain ⟨o, m', e2, e3, r1, r2⟩ := caller
  refine ⟨m', varKind E dm.ret, width E dm.ret, by simp only [callReturn, e2, e1, Out.ok_bind, e3], shape_of hE hd, ?_, r2⟩
  rw [valueAt_eq r1]
  by_cases hua : isUndef a.ty = true
  · have h1 := (shape_eq hE hs (.obj (hu hua))).2
    rw [hsame.2, ← h1]
    simp only [termCell, hua, if_true]
    exact .undef ((Types.isUndef_iff hE.types hta).1 hua)
  · simp only [termCell, hua, Bool.false_eq_true, if_false]
    rw [hsame.2]
    exact .value (fun h => hua ((Types.isUndef_iff hE.types hta).2 h)) (shape_of hE hs)

/-! ## The hypotheses are met, and what is missing -/

def envB (E : Env) (n : Nat) : Bool :=
  Types.wfB E.w n && (List.range E.w.length).all (fun b => decide (cat E.w b = .mulnum → 1 ≤ (E.mul b).2 ∧ (E.mul b).1 ≠ .void ∧ (E.mul b).1 ≠ .object ∧ (E.mul b).1 ≠ .ref))

theorem envB_true {E : Env} {n : Nat} (h : envB E n = true) : EnvOk E := by
  simp only [envB, Bool.and_eq_true, decide_eq_true_eq, List.all_eq_true, List.mem_range] at h
  refine ⟨Types.wfB_true h.1, fun b hb => ?_⟩
  have hl : b < E.w.length := by
    obtain ⟨x, hx, -⟩ := hb
    exact (List.getElem?_eq_some_iff.1 hx).1
  obtain ⟨h1, h2, h3, h4⟩ := h.2 b hl ((hasCat_iff (by simp)).1 hb)
  refine ⟨h1, ?_⟩
  cases hk : (E.mul b).1 with
  | byte => exact ⟨_, _, .byte⟩
  | short => exact ⟨_, _, .short⟩
  | int => exact ⟨_, _, .int⟩
  | long => exact ⟨_, _, .long⟩
  | float => exact ⟨_, _, .float⟩
  | double => exact ⟨_, _, .double⟩
  | _ => contradiction

def varB (w : World) (t : Ty) : Bool := Types.wfTyB w t && decide (cat w t.bt ≠ .undef ∧ cat w t.bt ≠ .void)

theorem varB_true {w : World} {t : Ty} (h : varB w t = true) : VarTy w t := by
  simp only [varB, Bool.and_eq_true, decide_eq_true_eq] at h
  exact ⟨Types.wfTyB_true h.1, by rw [hasCat_iff (by simp)]; exact h.2.1, by rw [hasCat_iff (by simp)]; exact h.2.2⟩

theorem varsB_true {w : World} {ps : List (Param φ)} (h : ps.all (fun p => varB w p.ty && decide (p.ty.dim ≤ 2)) = true) :
    ∀ p ∈ ps, VarTy w p.ty ∧ p.ty.dim ≤ 2 := by
  simp only [List.all_eq_true, Bool.and_eq_true, decide_eq_true_eq] at h
  exact fun p hp => ⟨varB_true (h p hp).1, (h p hp).2⟩

def tI : Ty := { bt := 17 }
def tK : Ty := { bt := 18 }
def tPoint : Ty := { bt := 19 }
def tWide : Ty := { bt := 20 }
def tInt : Ty := { bt := 5 }
def tDouble : Ty := { bt := 8 }
def tUndef : Ty := { bt := 1 }
def tStr : Ty := { bt := 9 }

/-- `method m : int ($a : int, $b : int = 5)` of the interface `I`. -/
def mI : Meth Unit := { params := [⟨tI, none⟩, ⟨tInt, none⟩, ⟨tInt, some (.const .int (.i 5))⟩], ret := tInt }
/-- `method m : int ($a : int, $b : int)` of the class `K`. -/
def mK : Meth Unit := { params := [⟨tK, none⟩, ⟨tInt, none⟩, ⟨tInt, none⟩], ret := tInt }
/-- `method m : int ($a : int, $b : int = 7, $c : string = undef)` of another class. -/
def mL : Meth Unit := { params := [⟨tK, none⟩, ⟨tInt, none⟩, ⟨tInt, some (.const .int (.i 7))⟩, ⟨tStr, some .undef⟩], ret := tInt }

/-- The interface `I` (17), the class `K` (18), `mulnum_t` types with two (19) and with three hundred `int` fields (20). -/
def exEnv : Env where
  w := builtins ++ [⟨[73], .iface, none, [sig [109] true mI]⟩, ⟨[75], .cls, none, [sig [109] false mK]⟩, ⟨[80], .mulnum, none, []⟩, ⟨[87], .mulnum, none, []⟩]
  n := 9
  mul := fun b => if b = 19 then (.int, 2) else (.int, 300)

theorem exEnv_ok : EnvOk exEnv := envB_true (n := 30) (by decide +kernel)

/-- The frame of the caller: object 8 in the variable 0, the numbers 11, 12, 13, ... -/
def exMem : Mem Unit
  | .object, i => .obj (some (8 + i))
  | _, i => .num (.i (11 + i))

/-- The frame of the callee before the parameters are stored. -/
def exMem0 : Mem Unit := fun _ _ => .num (.i 0)

/-- The value stack of the thread, with what earlier calls left there. -/
def exStack : List (Cell Unit) := List.replicate 512 (.int, .num (.i 99))

/-- `static method f : Point ($p : Point, $x : int, $s : string = undef, $d : double = 3)`. -/
def mF : Meth Unit := { isClass := true, params := [⟨tPoint, none⟩, ⟨tInt, none⟩, ⟨tStr, some .undef⟩, ⟨tDouble, some (.const .int (.i 3))⟩], ret := tPoint }

theorem constOk_of {ps : List (Param Unit)} (h : ps.all (fun p => match p.dflt with
    | some (.const .int (.i n)) => decide (-2147483648 ≤ n ∧ n ≤ 2147483647)
    | some (.const _ _) => false
    | _ => true) = true) : ∀ p ∈ ps, ConstOk p := by
  simp only [List.all_eq_true] at h
  intro p hp t x hd
  have := h p hp
  rw [hd] at this
  cases x with
  | i n =>
    cases t <;> simp_all [Expr.Literal, Expr.InRange]
    simp only [NT.bits]
    omega
  | f y => cases t <;> simp_all

/-- `method_accepts`: the three rules, kept and broken. -/
example : ParamsOk exEnv noFloat mF.params ∧ ¬ ParamsOk exEnv noFloat [(⟨tInt, some .undef⟩ : Param Unit)] ∧
    ¬ ParamsOk exEnv noFloat [(⟨tInt, some (.const .int (.i 1))⟩ : Param Unit), ⟨tInt, none⟩] ∧
    ¬ ParamsOk exEnv noFloat [(⟨tWide, none⟩ : Param Unit)] := by
  have key : ∀ (ps : List (Param Unit)), ps.all (fun p => varB exEnv.w p.ty && decide (p.ty.dim ≤ 2)) = true → (∀ p ∈ ps, ConstOk p) →
      ((∃ ra, checkMeth exEnv noFloat ps = .ok ra) → ParamsOk exEnv noFloat ps) ∧ ((∃ msg, checkMeth exEnv noFloat ps = .die msg) → ¬ ParamsOk exEnv noFloat ps) := by
    intro ps h1 h2
    rcases method_accepts exEnv_ok noFloat (fun p hp => (varsB_true h1 p hp).1) h2 with ⟨⟨r, h⟩, h'⟩ | ⟨⟨r, h⟩, h'⟩
    · exact ⟨fun _ => h', fun ⟨_, k⟩ => by rw [h] at k; cases k⟩
    · exact ⟨fun ⟨_, k⟩ => (by rw [h] at k; cases k), fun _ => h'⟩
  refine ⟨(key _ (by decide +kernel) (constOk_of (by decide +kernel))).1 ⟨_, rfl⟩, (key _ (by decide +kernel) (constOk_of (by decide +kernel))).2 ⟨_, rfl⟩,
    (key _ (by decide +kernel) (constOk_of (by decide +kernel))).2 ⟨_, rfl⟩, (key _ (by decide +kernel) (constOk_of (by decide +kernel))).2 ⟨msgWidth, ?_⟩⟩
  rfl

/-- `call_accepted`, `call_rejected`: `f($p, 1L as a constant)`, `f($p)`, `f($p, "x")`. -/
example : checkCall exEnv mF [(tPoint, false), ({ bt := 6 }, true)] = .ok [tPoint, tInt] ∧ checkCall exEnv mF [(tPoint, false)] = .die msgFew ∧
    checkCall exEnv mF [(tPoint, false), (tStr, false)] = .die msgAssign := by decide +kernel

/-- What `f` finds in its frame after `f($p, $x)` and after `f($p, $x, undef, $d)`. -/
def exRun (as : List Term) : Option (List (V Unit)) :=
  match call exEnv noFloat (fun _ _ => true) mF mF (paramVars exEnv mF.params []) as exMem exMem0 exStack with
  | .ok (m, _) => some [m .int 0, m .int 1, m .int 2, m .object 0, m .double 0, m .int 3]
  | _ => none

example : paramVars exEnv mF.params [] = [0, 2, 0, 0] ∧
    exRun [⟨tPoint, 4⟩, ⟨tInt, 1⟩] = some [.num (.i 15), .num (.i 16), .num (.i 12), .obj none, .num (.f ()), .num (.i 0)] ∧
    exRun [⟨tPoint, 4⟩, ⟨tInt, 1⟩, ⟨tStr, 3⟩, ⟨tDouble, 2⟩] =
      some [.num (.i 15), .num (.i 16), .num (.i 12), .obj (some 11), .num (.i 13), .num (.i 0)] := by decide +kernel

/-- `call_binds_partial`. -/
example : ∃ m' s', call exEnv noFloat (fun _ _ => true) mF mF (paramVars exEnv mF.params []) [⟨tPoint, 4⟩, ⟨tInt, 1⟩] exMem exMem0 exStack = .ok (m', s') ∧
    Bound exEnv noFloat mF.params (paramVars exEnv mF.params []) [⟨tPoint, 4⟩, ⟨tInt, 1⟩] exMem exMem0 m' := by
  have := call_binds_partial exEnv_ok (F := noFloat) (fun _ _ => true) (m := mF) ⟨_, rfl⟩ (varsB_true (by decide +kernel)) (constOk_of (by decide +kernel))
    (ts := [(tPoint, false), (tInt, false)]) (by simp only [List.mem_cons, List.not_mem_nil, or_false]; rintro t (rfl | rfl) <;> exact Types.wfTyB_true (by decide +kernel))
    (as := [⟨tPoint, 4⟩, ⟨tInt, 1⟩]) (by decide +kernel) [] exMem exMem0 (s := exStack) (by decide +kernel)
  rcases this with ⟨m', s', h1, h2, -⟩ | ⟨-, h, -⟩
  · exact ⟨m', s', h1, h2⟩
  · cases h

theorem mL_overrides : Overrides exEnv mI mL :=
  override_checked exEnv_ok (fun p hp => (varsB_true (ps := mI.params) (by decide +kernel) p hp).1.wf) (fun p hp => (varsB_true (ps := mL.params) (by decide +kernel) p hp).1.wf)
    (Types.wfTyB_true (by decide +kernel)) (Types.wfTyB_true (by decide +kernel))
    (by rintro p (h | h) <;> cases h
        · exact (Types.isObject_iff exEnv_ok.types (Types.wfTyB_true (by decide +kernel))).1 (by decide +kernel)
        · exact (Types.isObject_iff exEnv_ok.types (Types.wfTyB_true (by decide +kernel))).1 (by decide +kernel))
    (name := [109]) (q := true) (q' := false) (by decide +kernel)

theorem mK_overrides : Overrides exEnv mI mK :=
  override_checked exEnv_ok (fun p hp => (varsB_true (ps := mI.params) (by decide +kernel) p hp).1.wf) (fun p hp => (varsB_true (ps := mK.params) (by decide +kernel) p hp).1.wf)
    (Types.wfTyB_true (by decide +kernel)) (Types.wfTyB_true (by decide +kernel))
    (by rintro p (h | h) <;> cases h
        · exact (Types.isObject_iff exEnv_ok.types (Types.wfTyB_true (by decide +kernel))).1 (by decide +kernel)
        · exact (Types.isObject_iff exEnv_ok.types (Types.wfTyB_true (by decide +kernel))).1 (by decide +kernel))
    (name := [109]) (q := true) (q' := false) (by decide +kernel)

/-- `$i->m(1)`: the operands and their types. -/
def exArgs : List Term := [⟨tI, 0⟩, ⟨tInt, 1⟩]

/-- `dispatch_binds_partial`: `$i->m($x)` runs the method of a class that has one more optional parameter and another default. -/
example : ∃ m' s', call exEnv noFloat (fun _ _ => true) mI mL (paramVars exEnv mL.params []) exArgs exMem exMem0 exStack = .ok (m', s') ∧
    Bound exEnv noFloat mL.params (paramVars exEnv mL.params []) exArgs exMem exMem0 m' ∧ m' .int 1 = .num (.i 7) := by
  have := dispatch_binds_partial exEnv_ok (F := noFloat) (fun _ _ => true) (dm := mI) (sm := mL) ⟨_, rfl⟩ ⟨_, rfl⟩ mL_overrides
    (fun p hp => (varsB_true (ps := mI.params) (by decide +kernel) p hp).1) (varsB_true (by decide +kernel)) (constOk_of (by decide +kernel))
    (ts := [(tI, false), (tInt, false)]) (by simp only [List.mem_cons, List.not_mem_nil, or_false]; rintro t (rfl | rfl) <;> exact Types.wfTyB_true (by decide +kernel))
    (as := exArgs) (by decide +kernel) (fun r hr => by rw [required_unique hr (required_spec mL.params)]; decide) [] exMem exMem0 (s := exStack) (by decide +kernel)
  rcases this with ⟨m', s', h1, h2, -⟩ | ⟨-, j, p, a, o, h1, h2, h3, h4, h5⟩
  · refine ⟨m', s', h1, h2, ?_⟩
    have e : (match call exEnv noFloat (fun _ _ => true) mI mL (paramVars exEnv mL.params []) exArgs exMem exMem0 exStack with
      | .ok (m, _) => m .int 1
      | _ => .obj none) = .num (.i 7) := by decide +kernel
    rw [h1] at e
    exact e
  · cases h5

/-- **C65** fails for an optional parameter that an implementation makes required: the compiler accepts that `K` implements `I` and
accepts the call `$i->m(1)`; the method of `K` then finds in `$b` what an earlier call left on the value stack. -/
theorem optional_override_violated : EnvOk exEnv ∧ Types.hasInterface exEnv.w 9 18 17 = .ok true ∧ Overrides exEnv mI mK ∧
    checkCall exEnv mI [(tI, false), (tInt, false)] = .ok (exArgs.map Term.ty) ∧
    ∃ m' s', call exEnv noFloat (fun _ _ => true) mI mK (paramVars exEnv mK.params []) exArgs exMem exMem0 exStack = .ok (m', s') ∧
      m' .int 1 = .num (.i 99) ∧ ¬ Bound exEnv noFloat mK.params (paramVars exEnv mK.params []) exArgs exMem exMem0 m' := by
  refine ⟨exEnv_ok, by decide +kernel, mK_overrides, by decide +kernel, ?_⟩
  have e : (match call exEnv noFloat (fun _ _ => true) mI mK (paramVars exEnv mK.params []) exArgs exMem exMem0 exStack with
      | .ok (m, _) => m .int 1
      | _ => .obj none) = .num (.i 99) := by decide +kernel
  cases hc : call exEnv noFloat (fun _ _ => true) mI mK (paramVars exEnv mK.params []) exArgs exMem exMem0 exStack with
  | ok r =>
    rw [hc] at e
    refine ⟨r.1, r.2, rfl, e, fun hb => ?_⟩
    obtain ⟨k, d, x, -, h, -⟩ := hb.omitted 2 ⟨tInt, none⟩ 1 rfl (by decide +kernel) rfl
    cases h
  | die msg => rw [hc] at e; cases e
  | ub => rw [hc] at e; cases e

/-- **C65** fails for parameters that are arrays of three dimensions: the type is valid and the call is accepted, but the code
generator has no case for it (`assert(0)`; without assertions the parameter is never stored). -/
theorem three_dimensions_violated : ∃ (m : Meth Unit) (as : List Term), EnvOk exEnv ∧ (∀ p ∈ m.params, VarTy exEnv.w p.ty) ∧ ParamsOk exEnv noFloat m.params ∧
    checkCall exEnv m (as.map fun a => (a.ty, false)) = .ok (as.map Term.ty) ∧
    ∀ fits cm m0 s, call exEnv noFloat fits m m (paramVars exEnv m.params []) as cm m0 s = .ub := by
  have hv : ∀ p ∈ [(⟨{ bt := 5, dim := 3 }, none⟩ : Param Unit)], VarTy exEnv.w p.ty := by
    simp only [List.mem_cons, List.not_mem_nil, or_false]
    rintro p rfl
    exact varB_true (by decide +kernel)
  refine ⟨{ isClass := true, params := [⟨{ bt := 5, dim := 3 }, none⟩], ret := tInt }, [⟨{ bt := 5, dim := 3 }, 0⟩], exEnv_ok, hv, ?_, by decide +kernel, fun _ _ _ _ => rfl⟩
  rcases method_accepts exEnv_ok noFloat hv (by simp [ConstOk]) with ⟨-, h⟩ | ⟨⟨msg, h⟩, -⟩
  · exact h
  · cases h

/-- `return_value_partial`: `my $q = f(...)` with `return $p` in `f`. -/
example : ∃ m' k n, callReturn exEnv mF mF ⟨tPoint, 4⟩ 9 exMem exMem0 exStack = .ok m' ∧ Shape exEnv mF.ret k n ∧
    Passed exEnv mF.ret ⟨tPoint, 4⟩ exMem (valueAt m' k 9 n) ∧ ∀ k' i, ¬ (k' = k ∧ 9 ≤ i ∧ i < 9 + n) → m' k' i = exMem0 k' i :=
  return_value_partial exEnv_ok (varB_true (by decide +kernel)) (varB_true (by decide +kernel)) rfl rfl (im := true) (.inl rfl)
    (fun k n h => by rw [(shape_eq exEnv_ok (varB_true (by decide +kernel)) h).2]; decide +kernel) (t := tPoint) (narrow := false)
    (Types.wfTyB_true (by decide +kernel)) (a := ⟨tPoint, 4⟩) (by decide +kernel) 9 exMem exMem0 (by decide +kernel)

/-- **C65** fails for the return value of a multi-numeric type with three hundred fields, which the compiler accepts: the number of
fields does not fit the eight bits that the opcode has for it, and the fields from 44 on are lost. -/
theorem wide_return_violated : ∃ m : Meth Unit, EnvOk exEnv ∧ VarTy exEnv.w m.ret ∧ Shape exEnv m.ret .int 300 ∧
    checkAssign exEnv m.ret tWide false = .ok tWide ∧
    ∃ m', callReturn exEnv m m ⟨tWide, 0⟩ 0 exMem exMem0 exStack = .ok m' ∧ m' .int 43 = .num (.i 54) ∧ m' .int 44 = exMem0 .int 44 ∧
      exMem .int 44 ≠ exMem0 .int 44 := by
  have e : (match callReturn exEnv { isClass := true, params := [], ret := tWide } { isClass := true, params := [], ret := tWide } ⟨tWide, 0⟩ 0 exMem exMem0 exStack with
      | .ok m => decide (m .int 43 = .num (.i 54) ∧ m .int 44 = exMem0 .int 44)
      | _ => false) = true := by decide +kernel
  refine ⟨{ isClass := true, params := [], ret := tWide }, exEnv_ok, varB_true (by decide +kernel), ?_, by decide +kernel, ?_⟩
  · exact .mul rfl rfl ((hasCat_iff (by simp)).2 (by decide +kernel))
  · cases hc : callReturn exEnv { isClass := true, params := [], ret := tWide } { isClass := true, params := [], ret := tWide } ⟨tWide, 0⟩ 0 exMem exMem0 exStack with
    | ok m' =>
      rw [hc] at e
      simp only [decide_eq_true_eq] at e
      exact ⟨m', rfl, e.1, e.2, by decide +kernel⟩
    | die msg => rw [hc] at e; cases e
    | ub => rw [hc] at e; cases e

end Args
end SPVM
