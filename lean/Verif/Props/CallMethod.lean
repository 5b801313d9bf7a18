import Verif.Lemmas.CallMethod
import Verif.Props.Exchange

/-!
# C76: a method called from Perl receives the values given and its results come back
-/

namespace SPVM.Exch

/-- **C76**: the method that is looked up is the one meant by the invocant and the name, and the name is as before. -/
theorem c76_lookup (P : Perl) (R : Runtime) (inv : Sv) (name : List UInt8) (h : Heap) (m : Method) :
    (∃ n, resolve P R inv name h = (.ok m, n)) ↔ Finds P R h inv name m := by
  have other : (∀ k o, inv ≠ .obj k o) → ((∃ n, resolve P R inv name h = (.ok m, n)) ↔ Finds P R h inv name m) := by
    intro hno
    have hres : resolve P R inv name h = match R.basicType (svPV P inv) with
        | none => (.ub, name)
        | some t => match R.method t name with
          | some m => (if m.static then .ok m else .die "The method is not found", name)
          | none => (.die "The method is not found", name) := by
      cases inv with
      | obj k o => exact absurd rfl (hno k o)
      | _ => rfl
    rw [hres]
    constructor
    · rintro ⟨n, e⟩
      cases ht : R.basicType (svPV P inv) with
      | none => rw [ht] at e; cases e
      | some t =>
        rw [ht] at e
        cases hm : R.method t name with
        | none => simp [hm] at e
        | some m' =>
          cases hs : m'.static with
          | false => simp [hm, hs] at e
          | true =>
            simp [hm, hs] at e
            cases e.1
            exact .cls hno ht hm hs
    · intro f
      cases f with
      | cls _ ht hm hs => exact ⟨name, by simp [ht, hm, hs]⟩
      | obj => exact absurd rfl (hno _ _)
      | static => exact absurd rfl (hno _ _)
  cases inv with
  | obj k o =>
    clear other
    match k, o with
    | .str, _ => exact ⟨(fun ⟨_, e⟩ => nomatch e), (fun f => by cases f with | cls hno => exact absurd rfl (hno _ _))⟩
    | .arr, _ => exact ⟨(fun ⟨_, e⟩ => nomatch e), (fun f => by cases f with | cls hno => exact absurd rfl (hno _ _))⟩
    | .cls, none => exact ⟨(fun ⟨_, e⟩ => nomatch e), (fun f => by cases f with | cls hno => exact absurd rfl (hno _ _))⟩
    | .cls, some b =>
      cases hb : h[b]? with
      | none =>
        have hd : (deref (some b) h).1 = .ub := by simp [deref, hb]
        constructor
        · rintro ⟨n, e⟩
          rw [resolve, hd] at e; cases e
        · intro f
          cases f with
          | cls hno => exact absurd rfl (hno _ _)
          | obj hb' => rw [hb] at hb'; cases hb'
          | static hb' => rw [hb] at hb'; cases hb'
      | some ob =>
        have hd : (deref (some b) h).1 = .ok ob := by rw [deref_some hb]
        constructor
        · rintro ⟨n, e⟩
          rw [resolve, hd] at e
          simp only at e
          cases hc : lastColon name with
          | none =>
            simp only [hc] at e
            cases hm : R.dispatch ob.ty name with
            | none => simp [hm] at e
            | some m' =>
              cases hs : m'.static with
              | true => simp [hm, hs] at e
              | false =>
                simp [hm, hs] at e
                cases e.1
                exact .obj hb (lastColon_none.1 hc) hm hs
          | some q =>
            cases q with
            | zero => simp [hc] at e
            | succ p =>
              simp only [hc] at e
              by_cases h58 : name[p]? = some 58
              · rw [if_pos h58] at e
                obtain ⟨a, n', en, hl, hn⟩ := lastColon_some.1 hc
                have ha : a = a.take p ++ [58] := by
                  have hp : p < a.length := by omega
                  rw [en, List.getElem?_append_left hp, List.getElem?_eq_getElem hp] at h58
                  have h1 : a = a.take p ++ a.drop p := (List.take_append_drop p a).symm
                  have h2 : a.drop p = a[p] :: a.drop (p + 1) := List.drop_eq_getElem_cons hp
                  have h3 : a.drop (p + 1) = [] := List.drop_eq_nil_of_le (by omega)
                  rw [h2, h3, Option.some.inj h58] at h1
                  exact h1
                generalize hpre : a.take p = pre at ha
                have hlen : pre.length = p := by rw [← hpre, List.length_take]; omega
                have hname : name = pre ++ [58, 58] ++ n' := by rw [en, ha]; simp
                have ht : name.take p = pre := by rw [hname, ← hlen]; simp
                have hdr : name.drop (p + 2) = n' := by
                  rw [hname, ← hlen, show pre.length + 2 = (pre ++ [58, 58]).length by simp]
                  exact List.drop_left
                rw [ht, hdr] at e
                cases hbt : R.basicType pre with
                | none => simp [hbt] at e
                | some t =>
                  simp only [hbt] at e
                  cases hi : R.isa ob.ty ob.dim t 0 with
                  | false => simp [hi] at e
                  | true =>
                    simp only [hi, if_true] at e
                    cases hm : R.method t n' with
                    | none => simp [hm] at e
                    | some m' =>
                      cases hs : m'.static with
                      | true => simp [hm, hs] at e
                      | false =>
                        simp [hm, hs] at e
                        cases e.1
                        rw [hname]
                        exact .static hb hn hbt hi hm hs
              · rw [if_neg h58] at e; cases e
        · intro f
          cases f with
          | cls hno => exact absurd rfl (hno _ _)
          | obj hb' hn hm hs =>
            rw [hb] at hb'; cases hb'
            refine ⟨name, ?_⟩
            rw [resolve, hd]
            simp [lastColon_none.2 hn, hm, hs]
          | @static _ _ c n t _ hb' hn ht hi hm hs =>
            rw [hb] at hb'; cases hb'
            refine ⟨c ++ [58, 58] ++ n, ?_⟩
            have hc : lastColon (c ++ [58, 58] ++ n) = some (c.length + 1) :=
              lastColon_some.2 ⟨c ++ [58], n, by simp, by simp, hn⟩
            have h1 : (c ++ [58, 58] ++ n)[c.length]? = some 58 := by simp
            have h2 : (c ++ [58, 58] ++ n).take c.length = c := by simp
            have h3 : (c ++ [58, 58] ++ n).drop (c.length + 2) = n := by
              rw [show c.length + 2 = (c ++ [58, 58]).length by simp]
              exact List.drop_left
            rw [resolve, hd]
            simp only [hc, h1, h2, h3, ht, hi, hm, hs, if_true, Bool.false_eq_true, if_false]
  | _ => exact other (fun _ _ x => nomatch x)

/-- **C76**: when the method is found, the name the caller gave is unchanged. -/
theorem c76_name_kept (P : Perl) (R : Runtime) (inv : Sv) (name n : List UInt8) (h : Heap) (m : Method)
    (e : resolve P R inv name h = (.ok m, n)) : n = name := by
  unfold resolve at e
  repeat' split at e
  all_goals first
    | exact (Prod.mk.inj e).2.symm
    | cases e

/-- The call once the method is found. -/
theorem callMethod_found {P : Perl} {R : Runtime} {dbg err : Bool} {C : Callee} {stale : Nat → Slot} {inv : Sv} {name : List UInt8}
    {args : List Sv} {h : Heap} {m : Method} (f : Finds P R h inv name m) :
    callMethod P R dbg err C stale inv name args h =
      ((callFound P R.toWorld dbg err C stale m (if m.static then args else inv :: args) h).1, name,
       (callFound P R.toWorld dbg err C stale m (if m.static then args else inv :: args) h).2) := by
  obtain ⟨n, e⟩ := (c76_lookup P R inv name h m).2 f
  have := c76_name_kept P R inv name n h m e
  subst this
  rw [callMethod, e]

/-- **C76** (partly): a call with the right number of arguments, all of which the parameters take, runs the method on exactly these
values.  If the method throws, Perl dies with the text up to the first NUL and, if an error object was given, its error id.  If it
returns a value of its return type, Perl gets that value, and the scalars behind references hold what the method left there.
Missing: only the last argument given may be for a parameter with two dimensions or more (`c76_multi_dim_violated`). -/
theorem c76_call_partial {P : Perl} {R : Runtime} {err : Bool} {C : Callee} {stale : Nat → Slot} {inv : Sv} {name : List UInt8}
    {args : List Sv} {h : Heap} {m : Method} (f : Finds P R h inv name m) {vs : List Sv} (hvs : vs = if m.static then args else inv :: args)
    (hmin : m.required ≤ vs.length) (hmax : vs.length ≤ m.args.length)
    (hdim : ∀ (j : Nat) a, m.args[j]? = some a → 1 < a.dim → vs.length ≤ j + 1)
    (hacc : ∀ (j : Nat) a v, m.args[j]? = some a → vs[j]? = some v → Accepts R.toWorld h a v)
    (hk : ∀ v ∈ vs, KnownArg h v) (hs : ∀ v ∈ vs, SmallArg P v) :
    ∃ ss bs h1 st, Same h h1 ∧ AllPassed P h1 0 m.args vs ss bs ∧ (∀ (j : Nat) s, ss[j]? = some s → st j = s) ∧
      (∀ h2 id text, C m ss.length st bs h1 = (.throw id text, h2) → ∀ dbg,
        callMethod P R dbg err C stale inv name args h =
          (.thrown (text.takeWhile (· != 0)) (if err then some id else none), name, h2)) ∧
      ∀ h2 st' bs', C m ss.length st bs h1 = (.ret st' bs', h2) → GivesBack h2 m.ret st' →
        (∀ (j : Nat) b, bs[j]? = some b → ∃ b', bs'[j]? = some b' ∧ SameShape b b') →
        (∀ (j : Nat) a, m.args[j]? = some a → a.ref = true → j < vs.length ∧ a.dim = 0) → (∀ a ∈ m.args, DistinctFields a) →
        ∃ r ws h3, callMethod P R false err C stale inv name args h = (.done r ws, name, h3) ∧ Same h2 h3 ∧
          Returned P h2 m.ret st' r ∧ AllRestored P bs' 0 m.args vs ws := by
  obtain ⟨ss, bs, h1, e1, s1, p1⟩ := convertArgs_ok (P := P) (W := R.toWorld) 0 hmax hdim hacc hk hs
  refine ⟨ss, bs, h1, fun i => (ss[i]?).getD (stale i), s1, p1, fun j s e => by simp [e], ?_, ?_⟩
  · intro h2 id text hc dbg
    have hcf : callFound P R.toWorld dbg err C stale m vs h =
        (.thrown (text.takeWhile (· != 0)) (if err then some id else none), h2) := by
      rw [callFound, if_neg (by omega), if_neg (by omega), e1]
      simp only [hc]
    rw [callMethod_found f, ← hvs, hcf]
  · intro h2 st' bs' hc hg hb hr hf
    obtain ⟨r, h3, e3, s3, r3⟩ := retSv_ok (P := P) hg
    by_cases href : m.args.any (·.ref) = true
    · obtain ⟨ws, ew, rw'⟩ := restore_ok (bufs := bs') p1 (fun j b e => by rw [Nat.zero_add]; exact hb j b e) hr hf
      have hcf : callFound P R.toWorld false err C stale m vs h = (.done r ws, h3) := by
        rw [callFound, if_neg (by omega), if_neg (by omega), e1]
        simp only [hc, e3, href, ew, if_true]
      exact ⟨r, ws, h3, by rw [callMethod_found f, ← hvs, hcf], s3, r3, rw'⟩
    · have href' : m.args.any (·.ref) = false := by simpa using href
      have hcf : callFound P R.toWorld false err C stale m vs h = (.done r vs, h3) := by
        rw [callFound, if_neg (by omega), if_neg (by omega), e1]
        simp only [hc, e3, href', Bool.false_eq_true, if_false]
      exact ⟨r, vs, h3, by rw [callMethod_found f, ← hvs, hcf], s3, r3, noRef p1 href'⟩

/-- **C76**: with too few or too many arguments the method is not called and no object changes. -/
theorem c76_wrong_count {P : Perl} {R : Runtime} {inv : Sv} {name : List UInt8} {args : List Sv} {h : Heap} {m : Method}
    (f : Finds P R h inv name m) {vs : List Sv} (hvs : vs = if m.static then args else inv :: args)
    (hc : vs.length < m.required ∨ m.args.length < vs.length) :
    ∃ msg, ∀ dbg err C stale, callMethod P R dbg err C stale inv name args h = (.refused msg, name, h) := by
  by_cases h1 : vs.length < m.required
  · refine ⟨"Too few arguments", fun dbg err C stale => ?_⟩
    rw [callMethod_found f, ← hvs, callFound, if_pos h1]
  · refine ⟨"Too many arguments", fun dbg err C stale => ?_⟩
    rw [callMethod_found f, ← hvs, callFound, if_neg h1, if_pos (hc.resolve_left h1)]

/-- **C76**: an argument the parameter does not take is reported, the method is not called and no object changes. -/
theorem c76_bad_argument {P : Perl} {R : Runtime} {inv : Sv} {name : List UInt8} {args : List Sv} {h : Heap} {m : Method}
    (f : Finds P R h inv name m) {vs : List Sv} (hvs : vs = if m.static then args else inv :: args) {j : Nat} {a : Arg} {v : Sv}
    (ha : m.args[j]? = some a) (hv : vs[j]? = some v) (href : Refuses R.toWorld h a v)
    (hdim : ∀ (j' : Nat) a', j' < j → m.args[j']? = some a' → a'.dim ≤ 1)
    (hacc : ∀ (j' : Nat) a v, j' < j → m.args[j']? = some a → vs[j']? = some v → Accepts R.toWorld h a v)
    (hk : ∀ v ∈ vs, KnownArg h v) (hs : ∀ v ∈ vs, SmallArg P v) :
    ∃ msg h', Same h h' ∧ ∀ dbg err C stale, callMethod P R dbg err C stale inv name args h = (.refused msg, name, h') := by
  by_cases hc : vs.length < m.required ∨ m.args.length < vs.length
  · obtain ⟨msg, e⟩ := c76_wrong_count f hvs hc
    exact ⟨msg, h, .refl h, e⟩
  · obtain ⟨msg, h', e, s⟩ := convertArgs_die (P := P) (W := R.toWorld) 0 ha hv href hdim hacc hk hs
    refine ⟨msg, h', s, fun dbg err C stale => ?_⟩
    rw [callMethod_found f, ← hvs, callFound, if_neg (by omega), if_neg (by omega), e]

/-- **C76**: a name that means no method is reported or, see `c76_unknown_class_violated`, undefined: nothing is called. -/
theorem c76_not_found {P : Perl} {R : Runtime} {inv : Sv} {name : List UInt8} {args : List Sv} {h : Heap}
    (f : ∀ m, ¬ Finds P R h inv name m) :
    ∃ r n, ((∃ msg, r = .refused msg) ∨ r = .ub) ∧ ∀ dbg err C stale, callMethod P R dbg err C stale inv name args h = (r, n, h) := by
  cases e : resolve P R inv name h with
  | mk o n =>
    cases o with
    | ok m => exact absurd ((c76_lookup P R inv name h m).1 ⟨n, e⟩) (f m)
    | die msg => exact ⟨.refused msg, n, .inl ⟨msg, rfl⟩, fun _ _ _ _ => by rw [callMethod, e]⟩
    | ub => exact ⟨.ub, n, .inr rfl, fun _ _ _ _ => by rw [callMethod, e]⟩

/-! ## Violations -/

/-- A program with the class `A` and one class method `f`. -/
def oneMethod (m : Method) : Runtime where
  toWorld := someWorld
  basicType n := if n = [65] then some (.cls "A") else none
  method t n := if t = .cls "A" ∧ n = [102] then some m else none
  dispatch t n := if t = .cls "A" ∧ n = [102] then some m else none

/-- A method that returns its first cell. -/
def firstCell : Callee := fun _ _ st bs h => (.ret st bs, h)

/-- A method that returns its second cell. -/
def secondCell : Callee := fun _ _ st bs h => (.ret (fun i => st (i + 1)) bs, h)

def f_mul : Method := { static := true, args := [⟨.num .int, 2, false⟩, ⟨.num .int, 0, false⟩], required := 2, ret := some (.num .int, 0) }

/-- **C76 violated**: after an argument for a parameter with two dimensions the other arguments are not passed: the method
`f : int ($x : int[][], $y : int)` gets for `$y` what the stack held before. -/
theorem c76_multi_dim_violated (y : Int) (c : Cell .int) :
    (callMethod somePerl (oneMethod f_mul) false false secondCell (fun _ => .num .int c) (.pv [65]) [102] [.undef, .int y] []).1 =
      .done (some (svOf somePerl .int c)) [.undef, .int y] := rfl

def f_ref : Method := { static := true, args := [⟨.num .int, 0, true⟩, ⟨.num .int, 0, false⟩], required := 2, ret := none }

/-- **C76 violated**: if assertions are compiled in, a method with a reference and another parameter ends the process. -/
theorem c76_ref_assert_violated (x y : Int) :
    (callMethod somePerl (oneMethod f_ref) true false firstCell (fun _ => .obj none) (.pv [65]) [102] [.sref (.int x), .int y] []).1 = .ub :=
  rfl

/-- **C76 violated**: the class method call on a name that is no class is undefined behaviour, not an error. -/
theorem c76_unknown_class_violated (m : Method) (C : Callee) (dbg err : Bool) (stale : Nat → Slot) (args : List Sv) :
    (callMethod somePerl (oneMethod m) dbg err C stale (.pv [66]) [102] args []).1 = .ub := rfl

/-- **C76 violated**: a method name that starts with its only colon reads before the string. -/
theorem c76_colon_violated (m : Method) (C : Callee) (dbg err : Bool) (stale : Nat → Slot) (args : List Sv) :
    (callMethod somePerl (oneMethod m) dbg err C stale (.obj .cls (some 0)) [58, 102] args [⟨.cls "A", 0, 0, .inst, 1⟩]).1 = .ub := rfl

/-- **C76 violated**: when the class of `B::f` is not found, the caller's string is left changed: it is `B`, NUL, `:f`. -/
theorem c76_name_changed_violated (m : Method) (C : Callee) (dbg err : Bool) (stale : Nat → Slot) (args : List Sv) :
    ∃ msg, callMethod somePerl (oneMethod m) dbg err C stale (.obj .cls (some 0)) [66, 58, 58, 102] args [⟨.cls "A", 0, 0, .inst, 1⟩] =
      (.refused msg, [66, 0, 58, 102], [⟨.cls "A", 0, 0, .inst, 1⟩]) := ⟨_, rfl⟩

def f_void : Method := { static := true, args := [], required := 0, ret := none }

/-- **C76 violated**: of an exception with the text `a`, NUL, `b` Perl gets only `a`. -/
theorem c76_exception_text_violated :
    (callMethod somePerl (oneMethod f_void) false false (fun _ _ _ _ h => (.throw 1 [97, 0, 98], h)) (fun _ => .obj none)
      (.pv [65]) [102] [] []).1 = .thrown [97] none := rfl

/-! ## The hypotheses can be met -/

def f_add : Method := { static := true, args := [⟨.num .int, 0, true⟩, ⟨.string, 0, false⟩], required := 1, ret := some (.string, 0) }

/-- Sets the number behind its first argument to 9 and returns its second argument. -/
def setNine : Callee := fun _ _ st bs h =>
  (.ret (fun i => st (i + 1)) (bs.map (Option.map fun b => match b with | ⟨.int, _⟩ => ⟨.int, [9]⟩ | b => b)), h)

example : Finds somePerl (oneMethod f_add) [] (.pv [65]) [102] f_add := .cls (fun _ _ x => nomatch x) rfl rfl rfl
example : Accepts someWorld [] ⟨.num .int, 0, true⟩ (.sref (.int 5)) := ⟨_, rfl, .inl (.int 5)⟩
example : callMethod somePerl (oneMethod f_add) false false setNine (fun _ => .obj none) (.pv [65]) [102] [.sref (.int 5), .pv [72, 105]] [] =
    (.done (some (.obj .str (some 0))) [.sref (.int 9), .pv [72, 105]], [102], [⟨.string, 0, 2, .str [72, 105], 2⟩]) := rfl
example : ∃ msg, callMethod somePerl (oneMethod f_add) false false setNine (fun _ => .obj none) (.pv [65]) [102] [.int 5] [] =
    (.refused msg, [102], []) := ⟨_, rfl⟩
example : Refuses someWorld [] ⟨.num .int, 0, true⟩ (.int 5) := by rintro ⟨w, e, _⟩; cases e

end SPVM.Exch
