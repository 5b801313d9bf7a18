import Verif.Model.MethodCall

/-!
# C82: dynamic calls through `Native::MethodCall`
-/

namespace SPVM.MethodCall

open SPVM.Exch (NumK BT Cell Arg Method Obj Heap World Runtime X deref alloc crash readAll cellAt)

/-! ## Lemmas -/

theorem isObject_iff {ty : BT} {dim : Nat} : isObject ty dim = true ↔ IsObject ty dim := by
  unfold isObject IsObject
  cases ty <;> simp

theorem narrow8 (c : BitVec 8) : BitVec.setWidth 8 (BitVec.signExtend 32 c) = c := by
  apply BitVec.eq_of_getLsbD_eq
  intro i hi
  simp [BitVec.getLsbD_signExtend, hi]
  omega

theorem narrow16 (c : BitVec 16) : BitVec.setWidth 16 (BitVec.signExtend 32 c) = c := by
  apply BitVec.eq_of_getLsbD_eq
  intro i hi
  simp [BitVec.getLsbD_signExtend, hi]
  omega

theorem boxArg_eq (k : NumK) (c : Cell k) : boxArg k c = c := by
  cases k with
  | byte => exact narrow8 c
  | short => exact narrow16 c
  | int => rfl
  | long => rfl
  | float => rfl
  | double => rfl

theorem elemsOf_ok {k : NumK} {ob : Obj} {cs : List (Cell k)} (e : ob.body = .nums k cs) : elemsOf k ob = .ok cs := by
  unfold elemsOf
  rw [e]
  simp

theorem deref_ok {h : Heap} {x : Nat} {ob : Obj} (e : h[x]? = some ob) : deref (some x) h = (.ok ob, h) := by
  simp [deref, e]

theorem readAll_ok {f : Nat → Out α} : ∀ (xs : List α) (i : Nat), (∀ j (_ : j < xs.length), f (i + j) = .ok xs[j]) →
    readAll f xs.length i = .ok xs := by
  intro xs
  induction xs with
  | nil => intros; rfl
  | cons x xs ih =>
    intro i hf
    have h0 := hf 0 (by simp)
    simp only [Nat.add_zero, List.getElem_cons_zero] at h0
    have h1 := ih (i + 1) (fun j hj => by
      have := hf (j + 1) (by simp; omega)
      rw [List.getElem_cons_succ] at this
      rw [← this]
      congr 1
      omega)
    simp only [List.length_cons, readAll, h0, h1, Out.bind]

theorem convertArg_ok {W : World} {h : Heap} {a : Arg} {o : Option Nat} {ws : List Word} (hd : DimIrrelevant W h a o)
    (hp : Passed W h a o ws) : convertArg W a o h = (.ok ws, h) := by
  cases hp with
  | undef hr ho =>
    unfold convertArg
    rw [if_pos ⟨hr, isObject_iff.mpr ho⟩]
    rfl
  | @object x ob hr ho hx hi =>
    unfold convertArg
    rw [if_pos ⟨hr, isObject_iff.mpr ho⟩]
    simp only [Prog.bind_apply, deref_ok hx]
    rw [hd x ob rfl hx ho, if_pos hi]
    rfl
  | @number x k c hr h0 ht hb =>
    obtain ⟨ob, hx, h1, h2, h3⟩ := hb
    unfold convertArg
    rw [if_neg (by simp [isObject, h0, ht])]
    simp only [Prog.bind_apply, deref_ok hx]
    rw [if_neg (by simp [hr]), ht]
    simp only [h1, h2, and_self, if_true]
    simp only [Prog.bind_apply, elemsOf_ok h3]
    rfl
  | @fields x k fs cs hr h0 ht hb hl =>
    obtain ⟨ob, hx, h1, h2, h3, h4⟩ := hb
    unfold convertArg
    rw [if_neg (by simp [isObject, h0, ht])]
    simp only [Prog.bind_apply, deref_ok hx]
    rw [if_neg (by simp [hr]), ht]
    have hra : readAll (cellAt cs) fs.length 0 = .ok cs := by
      rw [← hl]
      exact readAll_ok cs 0 (fun j hj => by simp [cellAt, hj])
    simp only [h1, h2, h3, hl, ne_eq, not_true_eq_false, and_self, if_true, if_false]
    simp only [Prog.bind_apply, elemsOf_ok h4, Prog.lift, hra]
    rfl
  | @numberRef x k c hr ht hb =>
    obtain ⟨ob, hx, h1, h2, h3, h4⟩ := hb
    unfold convertArg
    rw [if_neg (by simp [hr])]
    simp only [Prog.bind_apply, deref_ok hx]
    rw [if_pos hr, ht]
    simp only [h1, h2, h3, List.length_singleton, ne_eq, not_true_eq_false, and_self, if_true, if_false]
    rfl
  | @fieldsRef x k fs cs hr ht hb hl =>
    obtain ⟨ob, hx, h1, h2, h3, h4⟩ := hb
    unfold convertArg
    rw [if_neg (by simp [hr])]
    simp only [Prog.bind_apply, deref_ok hx]
    rw [if_pos hr, ht]
    simp only [h1, h2, h3, hl, ne_eq, not_true_eq_false, and_self, if_true, if_false]
    rfl

theorem convertArg_die {W : World} {h : Heap} {a : Arg} {o : Option Nat} (hok : HeapOk h) (ha : ArgOk a)
    (hv : ∀ x, o = some x → x < h.length) (hd : DimIrrelevant W h a o) (hn : ∀ ws, ¬ Passed W h a o ws) :
    ∃ msg, convertArg W a o h = (.die msg, h) := by
  unfold convertArg
  by_cases hob : a.ref = false ∧ isObject a.ty a.dim = true
  · rw [if_pos hob]
    have ho := isObject_iff.mp hob.2
    cases o with
    | none => exact absurd (Passed.undef hob.1 ho) (hn _)
    | some x =>
      have hx : h[x]? = some (h[x]'(hv x rfl)) := List.getElem?_eq_getElem _
      simp only [Prog.bind_apply, deref_ok hx]
      rw [hd x _ rfl hx ho]
      by_cases hi : W.isa (h[x]'(hv x rfl)).ty (h[x]'(hv x rfl)).dim a.ty a.dim = true
      · exact absurd (Passed.object hob.1 ho hx hi) (hn _)
      · rw [if_neg hi]
        exact ⟨_, rfl⟩
  · rw [if_neg hob]
    cases o with
    | none => exact ⟨_, rfl⟩
    | some x =>
      have hx : h[x]? = some (h[x]'(hv x rfl)) := List.getElem?_eq_getElem _
      generalize h[x]'(hv x rfl) = ob at hx
      simp only [Prog.bind_apply, deref_ok hx]
      by_cases hr : a.ref = true
      · rw [if_pos hr]
        rcases (ha hr).2 with ⟨k, ht⟩ | ⟨fs, k, ht⟩
        · rw [ht]
          dsimp only
          by_cases hl : ob.len = 1
          · rw [if_neg (by simp [hl])]
            by_cases hk : ob.ty = .num k ∧ ob.dim = 1
            · obtain ⟨cs, hb, hc⟩ := hok.array x ob k hx hk.1 hk.2
              rw [hl] at hc
              match cs, hb, hc with
              | [c], hb, hc => exact absurd (Passed.numberRef hr ht ⟨ob, hx, hk.1, hk.2, hl, hb⟩) (hn _)
            · rw [if_neg hk]
              exact ⟨_, rfl⟩
          · rw [if_pos hl]
            exact ⟨_, rfl⟩
        · rw [ht]
          dsimp only
          by_cases hl : ob.len = fs.length
          · rw [if_neg (by simp [hl])]
            by_cases hk : ob.ty = .num k ∧ ob.dim = 1
            · obtain ⟨cs, hb, hc⟩ := hok.array x ob k hx hk.1 hk.2
              exact absurd (Passed.fieldsRef hr ht ⟨ob, hx, hk.1, hk.2, hc, hb⟩ (by omega)) (hn _)
            · rw [if_neg hk]
              exact ⟨_, rfl⟩
          · rw [if_pos hl]
            exact ⟨_, rfl⟩
      · rw [if_neg hr]
        have hr : a.ref = false := by simpa using hr
        have hno : isObject a.ty a.dim = false := by
          cases hh : isObject a.ty a.dim with
          | false => rfl
          | true => exact absurd ⟨hr, hh⟩ hob
        have h0 : a.dim = 0 := by
          simp [isObject] at hno
          exact hno.1
        cases ht : a.ty with
        | num k =>
          dsimp only
          by_cases hk : ob.ty = .cls (boxClass k) ∧ ob.dim = 0
          · obtain ⟨c, hb⟩ := hok.box x ob k hx hk.1 hk.2
            exact absurd (Passed.number hr h0 ht ⟨ob, hx, hk.1, hk.2, hb⟩) (hn _)
          · rw [if_neg hk]
            exact ⟨_, rfl⟩
        | mul fs k =>
          dsimp only
          by_cases hl : ob.len = fs.length
          · rw [if_neg (by simp [hl])]
            by_cases hk : ob.ty = .num k ∧ ob.dim = 1
            · obtain ⟨cs, hb, hc⟩ := hok.array x ob k hx hk.1 hk.2
              exact absurd (Passed.fields hr h0 ht ⟨ob, hx, hk.1, hk.2, hc, hb⟩ (by omega)) (hn _)
            · rw [if_neg hk]
              exact ⟨_, rfl⟩
          · rw [if_pos hl]
            exact ⟨_, rfl⟩
        | string => simp [isObject, ht] at hno
        | any => simp [isObject, ht] at hno
        | cls n => simp [isObject, ht] at hno

theorem convertArgs_ok {W : World} {h : Heap} {as : List Arg} {os : List (Option Nat)} {ws : List Word}
    (hp : AllPassed W h as os ws) : DimsIrrelevant W h as os → convertArgs W as os h = (.ok ws, h) := by
  induction hp with
  | nil => intro _; unfold convertArgs; rfl
  | @cons a as o os w ws h1 _ ih =>
    intro hd
    have e1 := convertArg_ok (hd 0 a o rfl rfl) h1
    have e2 := ih (fun i a o ha ho => hd (i + 1) a o ha ho)
    simp only [convertArgs, Prog.bind_apply, e1, e2]
    rfl

theorem convertArgs_die {W : World} {h : Heap} (hok : HeapOk h) : ∀ (as : List Arg) (os : List (Option Nat)),
    (∀ a ∈ as, ArgOk a) → (∀ x, some x ∈ os → x < h.length) → DimsIrrelevant W h as os → os.length ≤ as.length →
    (∀ ws, ¬ AllPassed W h as os ws) → ∃ msg, convertArgs W as os h = (.die msg, h) := by
  intro as os
  induction os generalizing as with
  | nil => intro _ _ _ _ hn; exact absurd AllPassed.nil (hn [])
  | cons o os ih =>
    intro ha hv hd hl hn
    cases as with
    | nil => simp at hl
    | cons a as =>
      by_cases hp : ∃ w, Passed W h a o w
      · obtain ⟨w, hp⟩ := hp
        have e1 := convertArg_ok (hd 0 a o rfl rfl) hp
        obtain ⟨msg, e2⟩ := ih as (fun a h => ha a (List.mem_cons_of_mem _ h)) (fun x h => hv x (List.mem_cons_of_mem _ h))
          (fun i a o ha ho => hd (i + 1) a o ha ho) (by simpa using hl) (fun ws h => hn _ (.cons hp h))
        exact ⟨msg, by simp only [convertArgs, Prog.bind_apply, e1, e2]⟩
      · obtain ⟨msg, e1⟩ := convertArg_die (W := W) (o := o) hok (ha a List.mem_cons_self)
          (fun x e => hv x (by rw [e]; exact List.mem_cons_self)) (hd 0 a o rfl rfl) (fun w h => hp ⟨w, h⟩)
        exact ⟨msg, by simp only [convertArgs, Prog.bind_apply, e1]⟩

theorem storeId_ok {id : Int} {r : Option Nat} {h h' : Heap} (hs : IdStored id r h h') : storeId id r h = (.ok (), h') := by
  cases hs with
  | none => rfl
  | some he => simp [storeId, he]

theorem giveBack_ok {ret : Option (BT × Nat)} {st : Nat → Word} {h h' : Heap} {v : Option Nat} (hr : Returned ret st h v h')
    (hv : ∀ ty dim, ret = some (ty, dim) → IsObject ty dim → ∃ x, v = some x ∧ x < h.length) :
    giveBack none ret st h = (.ok v, h') := by
  cases hr with
  | void => rfl
  | @object ty dim st h o ho hst =>
    obtain ⟨x, hx, hlt⟩ := hv ty dim rfl ho
    subst hx
    have hx : h[x]? = some (h[x]'hlt) := List.getElem?_eq_getElem _
    simp only [giveBack, isObject_iff.mpr ho, if_true, hst, wordObj, Prog.bind_apply, Prog.lift, deref_ok hx]
    rfl
  | @number k st h c hst =>
    simp only [giveBack, isObject, hst, wordNum, Prog.bind_apply, Prog.lift]
    simp [boxArg_eq, alloc, boxOf, Prog.bind_apply]
  | @fields fs k st h cs hl hst =>
    have hra : readAll (fun i => wordNum k (st i)) fs.length 0 = .ok cs := by
      rw [← hl]
      exact readAll_ok cs 0 (fun j hj => by simp [hst j hj, wordNum])
    simp only [giveBack, isObject, Prog.bind_apply, Prog.lift, hra]
    simp [alloc, arrayOf, Prog.bind_apply]

theorem stack_eq {ws : List Word} {stale st : Nat → Word} (hs : StackOf ws stale st) :
    (fun i => (ws[i]?).getD (stale i)) = st := by
  funext i
  by_cases hi : i < ws.length
  · rw [List.getElem?_eq_getElem hi, hs.1 i hi]
    rfl
  · rw [List.getElem?_eq_none (by omega), hs.2 i (by omega)]
    rfl

/-! ## C82 -/

theorem checkErrRef_ok {errRef : Option Nat} {h : Heap} (he : ∀ e, errRef = some e → ∃ c, IsArray h e .int [c]) :
    checkErrRef errRef h = (.ok (), h) := by
  cases errRef with
  | none => rfl
  | some e =>
    obtain ⟨c, ob, hx, _, _, hl, _⟩ := he e rfl
    simp only [checkErrRef, Prog.bind_apply, deref_ok hx]
    rw [hl]
    rfl

/-- **C82** (`call`, the method returns): with acceptable arguments the method is called exactly once, on the unchanged
objects, with exactly the words the documentation promises for each argument; the error id 0 is stored, and the caller gets
the return value, converted as documented.  An undefined object as return value is left out (`undef_return_violated`), and so is
a call made for another stack (`separate_stack_violated`). -/
theorem call_returns_partial (W : World) (C : Callee) (stale st0 st : Nat → Word) (m : Method)
    (args : Option (List (Option Nat))) (errRef : Option Nat) (h h1 h2 h3 : Heap) (ws : List Word) (v : Option Nat)
    (hmin : m.required ≤ (args.getD []).length) (hmax : (args.getD []).length ≤ m.args.length)
    (hdim : DimsIrrelevant W h m.args (args.getD [])) (hargs : AllPassed W h m.args (args.getD []) ws)
    (herr : ∀ e, errRef = some e → ∃ c, IsArray h e .int [c])
    (hstack : StackOf ws stale st0) (hcall : C ws.length st0 h = (.ret st, h1))
    (hid : IdStored 0 errRef h1 h2) (hret : Returned m.ret st h2 v h3)
    (hdef : ∀ ty dim, m.ret = some (ty, dim) → IsObject ty dim → ∃ x, v = some x ∧ x < h2.length) :
    call W none C stale m args errRef h = (.ok (.value v), h3) := by
  simp only [call, Prog.bind_apply, checkErrRef_ok herr]
  rw [if_neg (by omega), if_neg (by omega)]
  simp only [Prog.bind_apply, convertArgs_ok hargs hdim, Prog.get, stack_eq hstack, hcall, Prog.set, afterCall, storeId_ok hid,
    giveBack_ok hret hdef]
  rfl

/-- **C82** (`call`, the method throws): the error id is stored, and the caller gets an exception with the text of the
exception of the method. -/
theorem call_throws (W : World) (own : Option OwnStack) (C : Callee) (stale st0 : Nat → Word) (m : Method)
    (args : Option (List (Option Nat))) (errRef : Option Nat) (h h1 h2 : Heap) (ws : List Word) (id : Int) (text : List UInt8)
    (hmin : m.required ≤ (args.getD []).length) (hmax : (args.getD []).length ≤ m.args.length)
    (hdim : DimsIrrelevant W h m.args (args.getD [])) (hargs : AllPassed W h m.args (args.getD []) ws)
    (herr : ∀ e, errRef = some e → ∃ c, IsArray h e .int [c])
    (hstack : StackOf ws stale st0) (hcall : C ws.length st0 h = (.throw id text, h1))
    (hid : IdStored id errRef h1 h2) :
    call W own C stale m args errRef h = (.ok (.exception text), h2) := by
  simp only [call, Prog.bind_apply, checkErrRef_ok herr]
  rw [if_neg (by omega), if_neg (by omega)]
  simp only [Prog.bind_apply, convertArgs_ok hargs hdim, Prog.get, stack_eq hstack, hcall, Prog.set, afterCall, storeId_ok hid]
  rfl

/-- **C82** (`call`, wrong arguments): too few or too many arguments, an argument that is not acceptable for its parameter, or
an array for the error id with a length other than 1 throw an exception.  The method is not called: the outcome is the same for
every method body, and no object changes. -/
theorem call_refuses_partial (W : World) (m : Method) (args : Option (List (Option Nat))) (errRef : Option Nat) (h : Heap)
    (hok : HeapOk h) (hparams : ∀ a ∈ m.args, ArgOk a) (hvalid : ∀ x, some x ∈ args.getD [] → x < h.length)
    (herr : ∀ e, errRef = some e → ∃ cs, IsArray h e .int cs)
    (hdim : DimsIrrelevant W h m.args (args.getD []))
    (hbad : (args.getD []).length < m.required ∨ m.args.length < (args.getD []).length ∨
      (∀ ws, ¬ AllPassed W h m.args (args.getD []) ws) ∨ ∃ e cs, errRef = some e ∧ IsArray h e .int cs ∧ cs.length ≠ 1) :
    ∃ msg, ∀ own C stale, call W own C stale m args errRef h = (.die msg, h) := by
  by_cases hone : ∀ e, errRef = some e → ∃ c, IsArray h e .int [c]
  · by_cases h1 : (args.getD []).length < m.required
    · refine ⟨"Too few arguments", fun own C stale => ?_⟩
      simp only [call, Prog.bind_apply, checkErrRef_ok hone]
      rw [if_pos h1]
      rfl
    · by_cases h2 : m.args.length < (args.getD []).length
      · refine ⟨"Too many arguments", fun own C stale => ?_⟩
        simp only [call, Prog.bind_apply, checkErrRef_ok hone]
        rw [if_neg h1, if_pos h2]
        rfl
      · have h3 : ∀ ws, ¬ AllPassed W h m.args (args.getD []) ws := by
          rcases hbad with hb | hb | hb | ⟨e, cs, e1, e2, e3⟩
          · exact absurd hb h1
          · exact absurd hb h2
          · exact hb
          · obtain ⟨c, ob, hx, _, _, hl, _⟩ := hone e e1
            obtain ⟨ob', hx', _, _, hl', _⟩ := e2
            rw [hx] at hx'
            cases hx'
            exact absurd (by rw [← hl', hl]; rfl) e3
        obtain ⟨msg, e⟩ := convertArgs_die hok m.args (args.getD []) hparams hvalid hdim (by omega) h3
        refine ⟨msg, fun own C stale => ?_⟩
        simp only [call, Prog.bind_apply, checkErrRef_ok hone]
        rw [if_neg h1, if_neg h2]
        simp only [Prog.bind_apply, e]
  · cases errRef with
    | none => exact absurd (fun e he => nomatch he) hone
    | some e =>
      obtain ⟨cs, ob, hx, h1, h2, hl, hb⟩ := herr e rfl
      have hne : ob.len ≠ 1 := by
        intro hc
        rw [hl] at hc
        match cs, hc with
        | [c], _ =>
          exact hone (fun e' he' => by cases he'; exact ⟨c, ob, hx, h1, h2, hl, hb⟩)
      refine ⟨"If the reference to an error id $error_id_ref exists, the length of it must be 1.", fun own C stale => ?_⟩
      simp only [call, checkErrRef, Prog.bind_apply, deref_ok hx]
      rw [if_neg hne]
      rfl

theorem newClassMethod_ub (R : Runtime) (cls name : Option (List UInt8)) : newClassMethod R cls name ≠ .ub := by
  unfold newClassMethod
  split
  · simp
  · split
    · simp
    · split
      · simp
      · split
        · simp
        · split <;> simp

theorem newInstanceMethodStatic_ub (R : Runtime) (cls name : Option (List UInt8)) :
    newInstanceMethodStatic R cls name ≠ .ub := by
  unfold newInstanceMethodStatic
  split
  · simp
  · split
    · simp
    · split
      · simp
      · split
        · simp
        · split <;> simp

/-- **C82** (lookup): a class method is found by the name of its class and its own name, an instance method by the class of the
instance; class methods are not found as instance methods and vice versa; everything else throws. -/
theorem lookup (R : Runtime) (cls name : Option (List UInt8)) (inst : Option Nat) (h : Heap)
    (hv : ∀ x, inst = some x → x < h.length) :
    (∀ m, newClassMethod R cls name = .ok m ↔
      ∃ c n t, cls = some c ∧ name = some n ∧ R.basicType c = some t ∧ R.method t n = some m ∧ m.static = true) ∧
    (∀ m, newInstanceMethodStatic R cls name = .ok m ↔
      ∃ c n t, cls = some c ∧ name = some n ∧ R.basicType c = some t ∧ R.method t n = some m ∧ m.static = false) ∧
    (∀ m, newInstanceMethod R inst name h = (.ok m, h) ↔
      ∃ x n ob, inst = some x ∧ name = some n ∧ h[x]? = some ob ∧ R.dispatch ob.ty n = some m ∧ m.static = false) ∧
    newClassMethod R cls name ≠ .ub ∧ newInstanceMethodStatic R cls name ≠ .ub ∧ (newInstanceMethod R inst name h).1 ≠ .ub ∧
    (newInstanceMethod R inst name h).2 = h := by
  refine ⟨fun m => ?_, fun m => ?_, ?_⟩
  · cases cls with
    | none => simp [newClassMethod]
    | some c =>
      cases name with
      | none => simp [newClassMethod]
      | some n =>
        cases ht : R.basicType c with
        | none => simp [newClassMethod, ht]
        | some t =>
          cases hm : R.method t n with
          | none => simp [newClassMethod, ht, hm]
          | some m' =>
            cases hs : m'.static
            · simp [newClassMethod, ht, hm, hs]
              intro e; subst e; exact hs
            · simp [newClassMethod, ht, hm, hs]
              intro e; subst e; exact hs
  · cases cls with
    | none => simp [newInstanceMethodStatic]
    | some c =>
      cases name with
      | none => simp [newInstanceMethodStatic]
      | some n =>
        cases ht : R.basicType c with
        | none => simp [newInstanceMethodStatic, ht]
        | some t =>
          cases hm : R.method t n with
          | none => simp [newInstanceMethodStatic, ht, hm]
          | some m' =>
            cases hs : m'.static
            · simp [newInstanceMethodStatic, ht, hm, hs]
              intro e; subst e; exact hs
            · simp [newInstanceMethodStatic, ht, hm, hs]
              intro e; subst e; exact hs
  · cases inst with
    | none => simp [newInstanceMethod, newClassMethod_ub, newInstanceMethodStatic_ub, Prog.die]
    | some x =>
      have hx : h[x]? = some (h[x]'(hv x rfl)) := List.getElem?_eq_getElem _
      generalize h[x]'(hv x rfl) = ob at hx
      cases name with
      | none => simp [newInstanceMethod, newClassMethod_ub, newInstanceMethodStatic_ub, Prog.die]
      | some n =>
        cases hm : R.dispatch ob.ty n with
        | none =>
          simp [newInstanceMethod, newClassMethod_ub, newInstanceMethodStatic_ub, Prog.bind_apply, deref_ok hx, hm, hx, Prog.die]
        | some m' =>
          cases hs : m'.static
          · simp [newInstanceMethod, newClassMethod_ub, newInstanceMethodStatic_ub, Prog.bind_apply, deref_ok hx, hm, hx, hs]
          · simp [newInstanceMethod, newClassMethod_ub, newInstanceMethodStatic_ub, Prog.bind_apply, deref_ok hx, hm, hx, hs,
              Prog.die]

/-- **C82** (calls by name): `call_class_method` and `call_instance_method_static` call the method with the given names;
`call_instance_method` calls the method of the class of the first argument, with all arguments.  If there is no such method, or
no first argument, an exception is thrown, no method is called and no object changes. -/
theorem calls_by_name (R : Runtime) (C : Method → Callee) (stale : Nat → Word) (cls name : Option (List UInt8))
    (args : Option (List (Option Nat))) (errRef : Option Nat) (h : Heap)
    (hv : ∀ x, some x ∈ args.getD [] → x < h.length) :
    (∀ c n t m, cls = some c → name = some n → R.basicType c = some t → R.method t n = some m →
      (m.static = true → callClassMethod R C stale cls name args errRef h = call R.toWorld none (C m) stale m args errRef h) ∧
      (m.static = false →
        callInstanceMethodStatic R C stale cls name args errRef h = call R.toWorld none (C m) stale m args errRef h)) ∧
    (∀ x os n ob m, args = some (some x :: os) → name = some n → h[x]? = some ob → R.dispatch ob.ty n = some m →
      m.static = false →
      callInstanceMethod R C stale name args errRef h = call R.toWorld none (C m) stale m args errRef h) ∧
    ((¬ ∃ c n t m, cls = some c ∧ name = some n ∧ R.basicType c = some t ∧ R.method t n = some m ∧ m.static = true) →
      ∃ msg, callClassMethod R C stale cls name args errRef h = (.die msg, h)) ∧
    ((¬ ∃ c n t m, cls = some c ∧ name = some n ∧ R.basicType c = some t ∧ R.method t n = some m ∧ m.static = false) →
      ∃ msg, callInstanceMethodStatic R C stale cls name args errRef h = (.die msg, h)) ∧
    ((¬ ∃ x os n ob m, args = some (some x :: os) ∧ name = some n ∧ h[x]? = some ob ∧ R.dispatch ob.ty n = some m ∧
        m.static = false) →
      ∃ msg, callInstanceMethod R C stale name args errRef h = (.die msg, h)) := by
  refine ⟨?_, ?_, ?_, ?_, ?_⟩
  · intro c n t m h1 h2 h3 h4
    subst h1; subst h2
    constructor <;> intro h5 <;>
      simp [callClassMethod, callInstanceMethodStatic, newClassMethod, newInstanceMethodStatic, h3, h4, h5, Prog.bind_apply,
        Prog.lift]
  · intro x os n ob m h1 h2 h3 h4 h5
    subst h1; subst h2
    simp [callInstanceMethod, newInstanceMethod, Prog.bind_apply, deref_ok h3, h4, h5]
  · intro hn
    have hl := (lookup R cls name none h (by simp)).1
    have hu := newClassMethod_ub R cls name
    cases e : newClassMethod R cls name with
    | ok m => exact absurd ((hl m).mp e) (fun ⟨c, n, t, r⟩ => hn ⟨c, n, t, m, r⟩)
    | ub => exact absurd e hu
    | die msg => exact ⟨msg, by simp [callClassMethod, e, Prog.bind_apply, Prog.lift]⟩
  · intro hn
    have hl := (lookup R cls name none h (by simp)).2.1
    have hu := newInstanceMethodStatic_ub R cls name
    cases e : newInstanceMethodStatic R cls name with
    | ok m => exact absurd ((hl m).mp e) (fun ⟨c, n, t, r⟩ => hn ⟨c, n, t, m, r⟩)
    | ub => exact absurd e hu
    | die msg => exact ⟨msg, by simp [callInstanceMethodStatic, e, Prog.bind_apply, Prog.lift]⟩
  · intro hn
    cases args with
    | none => exact ⟨_, rfl⟩
    | some os =>
      cases os with
      | nil => exact ⟨_, rfl⟩
      | cons o os =>
        have hl := (lookup R none name o h (fun x e => hv x (by simp [e]))).2.2
        cases e : newInstanceMethod R o name h with
        | mk r h' =>
          rw [e] at hl
          obtain ⟨h1, _, _, h2, h3⟩ := hl
          dsimp only at h2 h3
          subst h3
          cases r with
          | ok m =>
            obtain ⟨x, n, ob, e1, r⟩ := (h1 m).mp rfl
            exact absurd ⟨x, os, n, ob, m, by rw [e1], r⟩ hn
          | ub => exact absurd rfl h2
          | die msg => exact ⟨msg, by simp [callInstanceMethod, e, Prog.bind_apply]⟩

/-! ## What does not hold -/

/-- A type relation for the examples: a type can be assigned only to itself. -/
def sameOnly : World := ⟨fun t d t' d' => decide (t = t' ∧ d = d')⟩

/-- A string array and the class method `foo : void ($x : string)`. -/
def strings : Heap := [{ ty := .string, dim := 1, len := 1, body := .objs [none], rc := 1 }]

def foo : Method := { static := true, args := [{ ty := .string, dim := 0, ref := false }], required := 1, ret := none }

theorem strings_ok : HeapOk strings := by
  constructor <;> intro x ob k hx ht <;> match x, hx with
    | 0, hx => cases hx; cases k <;> cases ht

/-- **C82, violated**: an array is accepted for a parameter that is not an array: MethodCall.c 239 compares the dimension of the
parameter with itself.  `foo` receives a `string[]` object as its string. -/
theorem dimension_violated :
    HeapOk strings ∧ (∀ ws, ¬ AllPassed sameOnly strings foo.args [some 0] ws) ∧
    ∀ (C : Callee) (stale st0 : Nat → Word) (id : Int) (text : List UInt8) (h1 : Heap),
      StackOf [.obj (some 0)] stale st0 → C 1 st0 strings = (.throw id text, h1) →
      call sameOnly none C stale foo (some [some 0]) none strings = (.ok (.exception text), h1) := by
  refine ⟨strings_ok, ?_, ?_⟩
  · intro ws hp
    cases hp with
    | cons h1 _ =>
      cases h1 with
      | object _ _ hx hi =>
        cases hx
        exact absurd hi (by decide)
      | number _ _ ht _ => cases ht
      | fields _ _ ht _ _ => cases ht
      | numberRef hr _ _ => cases hr
      | fieldsRef hr _ _ _ => cases hr
  · intro C stale st0 id text h1 hs hc
    have e : convertArgs sameOnly foo.args [some 0] strings = (.ok [.obj (some 0)], strings) := by rfl
    have hs' := stack_eq hs
    simp only [call, Prog.bind_apply, checkErrRef_ok (errRef := none) (h := strings) (fun _ h => nomatch h), Option.getD_some]
    rw [if_neg (by decide), if_neg (by decide)]
    simp only [Prog.bind_apply, e, Prog.get, List.length_singleton, hs', hc, Prog.set, afterCall, storeId]
    rfl

/-- The class method `bar : string ()`. -/
def bar : Method := { static := true, args := [], required := 0, ret := some (.string, 0) }

/-- **C82, violated**: if the method returns undef for an object type, the null pointer is followed
(MethodCall.c 653, spvm_api.c 5413). -/
theorem undef_return_violated (W : World) (stale : Nat → Word) (h : Heap) :
    Returned bar.ret (fun _ => .obj none) h none h ∧
    (call W none (fun _ _ h => (.ret (fun _ => .obj none), h)) stale bar none none h).1 = .ub :=
  ⟨.object (.inr (.inl rfl)) rfl, rfl⟩

/-- **C82, violated**: with a stack of its own the call does not give its return value to the caller: instead of the object,
the caller gets the `Native::MethodCall` object itself, and instead of the number that was returned a number read from the
pointer to it. -/
theorem separate_stack_violated (W : World) (stale : Nat → Word) (own : OwnStack) (h : Heap) :
    (∀ x, x < h.length → call W (some own) (fun _ _ h => (.ret (fun _ => .obj (some x)), h)) stale bar none none h =
      (.ok (.value (some own.call)), h)) ∧
    ∀ c : Cell .int, call W (some own) (fun _ _ h => (.ret (fun _ => .num .int c), h)) stale
        { bar with ret := some (.num .int, 0) } none none h =
      (.ok (.value (some h.length)), h ++ [boxOf .int (own.bits .int)]) := by
  constructor
  · intro x hx
    have e : h[x]? = some (h[x]'hx) := List.getElem?_eq_getElem _
    have e2 : giveBack (some own) bar.ret (fun _ => .obj (some x)) h = (.ok (some own.call), h) := by
      simp [giveBack, bar, isObject, wordObj, Prog.bind_apply, Prog.lift, deref_ok e]
    simp only [call, Prog.bind_apply, checkErrRef_ok (errRef := none) (h := h) (fun _ h => nomatch h), Option.getD_none]
    rw [if_neg (by decide), if_neg (by decide)]
    have e3 : convertArgs W bar.args [] h = (.ok [], h) := rfl
    simp only [Prog.bind_apply, e3, Prog.get, Prog.set, afterCall, storeId, Prog.pure_apply, e2]
  · intro c
    rfl

/-! ## Non-vacuity -/

/-- An `Int` object with the value 7, an `int[]` with the element 0 for the error id, an `int[]` with two elements, a string. -/
def objects : Heap :=
  [boxOf .int 7#32, arrayOf .int [0#32], arrayOf .int [3#32, 4#32], { ty := .string, dim := 0, len := 1, body := .str [97], rc := 1 }]

/-- `baz : int ($n : int, $p : a multi-numeric type with the fields x and y, $r : int*, $s : string)`. -/
def baz : Method :=
  { static := true,
    args := [⟨.num .int, 0, false⟩, ⟨.mul ["x", "y"] .int, 0, false⟩, ⟨.num .int, 0, true⟩, ⟨.string, 0, false⟩],
    required := 3, ret := some (.num .int, 0) }

theorem objects_passed : AllPassed sameOnly objects baz.args [some 0, some 2, some 1, some 3]
    [.num .int 7#32, .num .int 3#32, .num .int 4#32, .elems 1, .obj (some 3)] :=
  .cons (.number rfl rfl rfl ⟨_, rfl, rfl, rfl, rfl⟩)
    (.cons (w := [.num .int 3#32, .num .int 4#32]) (.fields (k := .int) (cs := [3#32, 4#32]) rfl rfl rfl ⟨_, rfl, rfl, rfl, rfl, rfl⟩ rfl)
      (.cons (w := [.elems 1]) (.numberRef rfl rfl ⟨_, rfl, rfl, rfl, rfl, rfl⟩)
        (.cons (w := [.obj (some 3)]) (ws := []) (.object rfl (.inr (.inl rfl)) rfl rfl) .nil)))

example : DimsIrrelevant sameOnly objects baz.args [some 0, some 2, some 1, some 3] := by
  intro i a o ha ho x ob hx hob hio
  match i, ha, ho with
  | 0, ha, ho => cases ha; rcases hio with h | h | h | ⟨_, h⟩ <;> simp at h
  | 1, ha, ho => cases ha; rcases hio with h | h | h | ⟨_, h⟩ <;> simp at h
  | 2, ha, ho => cases ha; rcases hio with h | h | h | ⟨_, h⟩ <;> simp at h
  | 3, ha, ho =>
    cases ha
    cases ho
    cases hx
    cases hob
    rfl

/-- `baz` writes 9 through its reference and returns its first argument; the caller sees both. -/
def bazBody : Callee := fun _ st h => (.ret (fun _ => st 0), h.set 1 (arrayOf .int [9#32]))

example : call sameOnly none bazBody (fun _ => .obj none) baz (some [some 0, some 2, some 1, some 3]) none objects =
    (.ok (.value (some 4)), objects.set 1 (arrayOf .int [9#32]) ++ [boxOf .int 7#32]) := rfl

example : call sameOnly none (fun _ _ h => (.throw 5 [120], h)) (fun _ => .obj none) baz (some [some 0, some 2, some 1, some 3])
    (some 1) objects = (.ok (.exception [120]), objects.set 1 { arrayOf .int [0#32] with body := .nums .int [5#32] }) := rfl

example : (call sameOnly none bazBody (fun _ => .obj none) baz (some [some 0, some 2]) none objects).1 =
    .die "Too few arguments" := rfl

end SPVM.MethodCall
