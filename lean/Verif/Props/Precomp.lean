import Verif.Lemmas.PrecompGen

/-
C73: a method with the `precompile` attribute does what the same method does in the interpreter.
-/

namespace SPVM.Precomp

open Spec.Precomp Spec.PrecompName

/-- The interpreter does what the method says: whatever the numbers of classes and members, each call of a function or macro gets the
things with the names in the method, and a switch goes to the case with the number. -/
theorem interpreted {σ} (M : Machine σ) (rt : Runtime) (hd : Distinct rt) (m : Code) (p : NProg) (h : says rt m = some p) {k : Nat}
    (hp : Shaped p k) (n : Nat) (s : σ) : runV M rt m n s = runN M rt p n s := by
  obtain ⟨bs, hbs, _⟩ := hp.ends
  exact runV_says M hd h hp.sorted n s (by rw [hbs]; simp)

/-- The C function does what the method says: it is written in a runtime `rt0` (when the shared library is built) and runs in a runtime
`rt1`, which may have other classes and number them differently, provided the method mentions tidy names and its texts can be put
between quotes. -/
theorem precompiled_says_partial {σ} (M : Machine σ) (hm : MortalLaws M) (rt0 rt1 : Runtime) (h0 : Distinct rt0) (h1 : Distinct rt1)
    (m0 m1 : Code) (p : NProg) (hs0 : says rt0 m0 = some p) (hs1 : says rt1 m1 = some p) (hp : Shaped p m0.mortalLen)
    (ht : ∀ i, p.Has i → ∀ a ∈ i.args, (∀ e ∈ a.entities, TidyEnt e) ∧ a.Quotable) :
    ∃ fn, generate rt0 m0 = some fn ∧ ∀ n s, M.mortalTop s = 0#32 → runC M rt1 fn n s = runN M rt1 p n s := by
  refine ⟨_, generate_says h0 hs0, ?_⟩
  intro n s hs
  have hms : ∀ ms ∈ p.blocks.map blockEnts, ∀ e ∈ ms, TidyEnt e := by
    intro ms hms e he
    obtain ⟨b, hb, rfl⟩ := List.mem_map.1 hms
    unfold blockEnts at he
    obtain ⟨a, ha, hea⟩ := List.mem_flatMap.1 he
    obtain ⟨i, hi, hai⟩ := List.mem_flatMap.1 ha
    exact (ht i ⟨b, hb, hi⟩ a hai).1 e hea
  obtain ⟨hdecl, href⟩ := lookups_exact_partial _ hms
  have hall : ((decls (p.blocks.map blockEnts)).all fun d => (byName rt1 d).isSome) = true := by
    rw [List.all_eq_true]
    intro d hd
    obtain ⟨ms, h', hd'⟩ := (hdecl d).1 hd
    obtain ⟨b, hb, rfl⟩ := List.mem_map.1 h'
    exact found h1 hs1 b hb d hd'
  unfold runC runN
  rw [if_pos hall]
  obtain ⟨bs, hbs, hnf⟩ := hp.ends
  simp only [List.length_map]
  have hlen : p.blocks.length = bs.length + 1 := by rw [hbs]; simp
  apply go_last (P := Inv M m0.mortalLen)
  · intro pc hpc s hs
    have hb : p.blocks[pc]? = some bs[pc] := by
      rw [hbs, List.getElem?_append_left (by omega)]
      simp [show pc < bs.length by omega]
    have hmem : bs[pc] ∈ p.blocks := List.mem_of_getElem? hb
    simp only [cBlock, nBlock, List.getElem?_map, hb, Option.map_some]
    apply cBlock_says M hm rt1 p _ m0.mortalLen rfl rfl (hnf _ (List.getElem_mem _))
    · intro i hi a ha e he
      exact href _ (List.mem_map.2 ⟨_, hmem, rfl⟩) e (List.mem_flatMap.2 ⟨a, List.mem_flatMap.2 ⟨i, hi, ha⟩, he⟩)
    · intro i hi a ha
      exact (ht i ⟨_, hmem, hi⟩ a ha).2
    · intro hk as h
      exact hp.noPush hk as ⟨_, hmem, h⟩
    · intro hk as h
      exact hp.leaves hk as ⟨_, hmem, h⟩
    · exact hs
  · intro pc s hpc
    have hb : p.blocks[pc]? = some [.finish] := by
      rw [hbs, List.getElem?_append_right (by omega)]
      simp [show pc - bs.length = 0 by omega]
    simp [cBlock, List.getElem?_map, hb, repStmt, runStmts]
  · intro pc s hpc
    have hb : p.blocks[pc]? = some [.finish] := by
      rw [hbs, List.getElem?_append_right (by omega)]
      simp [show pc - bs.length = 0 by omega]
    simp [nBlock, hb, runStmts, nStmt]
  · omega
  · exact fun _ => hs

/-- The C function and the interpreter do the same, call by call: after any number of operation codes both are at the same place in the
same state, both have ended in the same state, or both go wrong. -/
theorem precompiled_as_interpreted_partial {σ} (M : Machine σ) (hm : MortalLaws M) (rt0 rt1 : Runtime) (h0 : Distinct rt0)
    (h1 : Distinct rt1) (m0 m1 : Code) (p : NProg) (hs0 : says rt0 m0 = some p) (hs1 : says rt1 m1 = some p) (hp : Shaped p m0.mortalLen)
    (ht : ∀ i, p.Has i → ∀ a ∈ i.args, (∀ e ∈ a.entities, TidyEnt e) ∧ a.Quotable) :
    ∃ fn, generate rt0 m0 = some fn ∧ ∀ n s, M.mortalTop s = 0#32 → runC M rt1 fn n s = runV M rt1 m1 n s := by
  obtain ⟨fn, hg, hr⟩ := precompiled_says_partial M hm rt0 rt1 h0 h1 m0 m1 p hs0 hs1 hp ht
  refine ⟨fn, hg, fun n s hs => ?_⟩
  rw [hr n s hs, interpreted M rt1 h1 m1 p hs1 hp n s]

/-- Every constant string, whatever its bytes, is read back from the literal written for it. -/
theorem constant_string_literal (bs : List UInt8) : readLit .plain (hexText bs) = some bs := (readLit_hex bs).1

/-! ## The hypotheses are met -/

/-- A machine which writes down what happens: the calls with their arguments, the stack traces, the mortal stack top and `error_id`. -/
structure Log where
  calls : List (OpId × List Val)
  traces : List (Option Val × BitVec 32)
  top : BitVec 32
  error : BitVec 32
deriving DecidableEq

/-- Int variable 0 is 5, the others 0; a call of an instance method throws. -/
def logMachine : Machine Log where
  call f vs s :=
    if f = .LEAVE_SCOPE then
      if vs = [.sym .env, .sym .stack, .sym .objectVars, .sym .mortalStack, .sym .addrMortalTop, .num s.top] then s
      else { s with calls := s.calls ++ [(f, vs)], top := 0#32 }
    else if f = .PUSH_MORTAL then { s with calls := s.calls ++ [(f, vs)], top := s.top + 1#32 }
    else if f = .CALL_INSTANCE_METHOD then { s with calls := s.calls ++ [(f, vs)], error := 10#32 }
    else { s with calls := s.calls ++ [(f, vs)] }
  content _ _ _ := 0#64
  int i _ := if i = 0#32 then 5#32 else 0#32
  errorId s := s.error
  catchError s := { s with error := 0#32 }
  addTrace x l s := { s with traces := s.traces ++ [(x, l)] }
  mortalTop s := s.top

theorem log_laws : MortalLaws logMachine where
  call f as s h1 h2 := by
    simp only [logMachine, if_neg h1, if_neg h2]
    split <;> rfl
  catchError _ := rfl
  addTrace _ _ _ := rfl
  leave s := by simp [logMachine]

def log0 : Log := ⟨[], [], 0#32, 0#32⟩

def cPoint : Name := "Math::Point_3D".toList

def pointClass (id : Nat) : Class :=
  { name := cPoint, file := "lib/Math/Point_3D.spvm".toList, fields := [⟨"x".toList, 0⟩, ⟨"y".toList, 8⟩], classVars := ["$MAX".toList],
    methods := [⟨"new".toList, id⟩, ⟨"run".toList, id⟩], consts := [[104, 105, 10, 34, 0, 255]] }

def intClass : Class := { name := "int".toList, file := [], fields := [], classVars := [], methods := [], consts := [] }

/-- The runtime when the library is built, and the one in which it is used, where the class has another id. -/
def buildRt : Runtime := [intClass, pointClass 1]
def useRt : Runtime := [intClass, { intClass with name := "long".toList }, pointClass 2]

def sampleCode (cls : BitVec 32) : Code :=
  { cls := cls, meth := 1#32, mortalLen := 0
    ops := [⟨.GET_FIELD_INT, 0#32, 0#32, cls, 1#16⟩, ⟨.LOOKUP_SWITCH, 0#32, 9#32, 2#32, 0#16⟩, ⟨.CASE_INFO, 0#32, 0xFFFFFFFF#32, 9#32, 0#16⟩,
            ⟨.CASE_INFO, 0#32, 5#32, 4#32, 0#16⟩, ⟨.NEW_STRING, 1#32, 0#32, 0#32, 0#16⟩, ⟨.WARN, 1#32, 30#32, 0#32, 0#16⟩,
            ⟨.GET_CLASS_VAR_INT, 1#32, cls, 0#32, 0#16⟩, ⟨.CALL_INSTANCE_METHOD, cls, 0#32, 1#32, 0#16⟩,
            ⟨.GOTO_END_OF_METHOD_ON_EXCEPTION, 9#32, 0#32, 31#32, 0#16⟩, ⟨.LEAVE_SCOPE, 0#32, 0#32, 0#32, 0#16⟩,
            ⟨.END_METHOD, 0#32, 0#32, 0#32, 0#16⟩] }

def sampleProg : NProg :=
  { cls := cPoint, meth := "run".toList
    blocks := [[.call .GET_FIELD_INT [.sym .env, .sym .stack, .addr .int 0#32, .var .object 0#32, .entity (.fieldOffset cPoint "y".toList),
                  .sym .addrErrorId, .sym .objectDataOffset]],
               [.switch 0#32 [(0xFFFFFFFF#32, 9#32), (5#32, 4#32)] 9#32], [], [],
               [.call .NEW_STRING [.sym .env, .sym .stack, .addr .object 1#32, .data [104, 105, 10, 34, 0, 255], .num 6#32, .sym .addrErrorId]],
               [.call .WARN [.sym .env, .sym .stack, .var .object 1#32, .name cPoint, .name "run".toList,
                  .name "lib/Math/Point_3D.spvm".toList, .num 30#32]],
               [.call .GET_CLASS_VAR_INT [.sym .env, .sym .stack, .var .int 1#32, .entity (.classVar cPoint "$MAX".toList)]],
               [.call .CALL_INSTANCE_METHOD [.sym .env, .sym .stack, .name cPoint, .name "new".toList, .num 1#32, .sym .addrErrorId]],
               [.leaveOnError 31#32 9#32],
               [.call .LEAVE_SCOPE [.sym .env, .sym .stack, .sym .objectVars, .sym .mortalStack, .sym .addrMortalTop, .num 0#32]],
               [.finish]] }

theorem sample_said : says buildRt (sampleCode 1#32) = some sampleProg ∧ says useRt (sampleCode 2#32) = some sampleProg := by decide +kernel

theorem distinct_of {rt : Runtime} (h : (rt.map Class.name).Nodup)
    (h' : ∀ b ∈ rt, (b.fields.map Field.name).Nodup ∧ b.classVars.Nodup ∧ (b.methods.map Method.name).Nodup)
    (ho : (List.range rt.length).all (fun i => (rt[i]?.map fun b => b.methods.all fun x => x.owner == i).getD true) = true) : Distinct rt where
  classes := h
  fields b hb := (h' b hb).1
  classVars b hb := (h' b hb).2.1
  methods b hb := (h' b hb).2.2
  owner i b hb x hx := by
    rw [List.all_eq_true] at ho
    have hi : i < rt.length := (List.getElem?_eq_some_iff.1 hb).1
    have := ho i (List.mem_range.2 hi)
    simp only [hb, Option.map_some, Option.getD_some, List.all_eq_true] at this
    simpa using this x hx

theorem sample_distinct : Distinct buildRt ∧ Distinct useRt :=
  ⟨distinct_of (by decide +kernel) (by decide +kernel) (by decide +kernel), distinct_of (by decide +kernel) (by decide +kernel) (by decide +kernel)⟩

/-- `Shaped`, as a test. -/
def shapedStmt (k : Nat) : NStmt → Bool
  | .switch _ cs _ => decide ((cs.map fun c => c.1.toInt).Pairwise (· < ·))
  | .call f as => !(k == 0) || (f != .PUSH_MORTAL && (f != .LEAVE_SCOPE ||
      as == [.sym .env, .sym .stack, .sym .objectVars, .sym .mortalStack, .sym .addrMortalTop, .num 0#32]))
  | _ => true

theorem shaped_of {p : NProg} {k : Nat} (bs : List (List NStmt)) (h : p.blocks = bs ++ [[.finish]]) (h' : ∀ b ∈ bs, NStmt.finish ∉ b)
    (ha : p.blocks.all (fun b => b.all (shapedStmt k)) = true) : Shaped p k := by
  have hb : ∀ i, p.Has i → shapedStmt k i = true := by
    rintro i ⟨b, hb, hi⟩
    rw [List.all_eq_true] at ha
    exact List.all_eq_true.1 (ha b hb) i hi
  refine ⟨⟨bs, h, h'⟩, ?_, ?_, ?_⟩
  · intro v cs d hi
    simpa [shapedStmt] using hb _ hi
  · intro hk as hi
    have := hb _ hi
    simp [shapedStmt, hk] at this
  · intro hk as hi
    have := hb _ hi
    simpa [shapedStmt, hk] using this

theorem sample_shaped : Shaped sampleProg 0 :=
  shaped_of sampleProg.blocks.dropLast (by decide +kernel) (by decide +kernel) (by decide +kernel)

theorem sample_ok : ∀ i, sampleProg.Has i → ∀ a ∈ i.args, (∀ e ∈ a.entities, TidyEnt e) ∧ a.Quotable := by
  have hm : ∀ a ∈ (sampleProg.blocks.flatten.flatMap NStmt.args), (∀ e ∈ a.entities, TidyEnt e) ∧ a.Quotable := by
    intro a ha
    have hq : a.Quotable := by
      have : ∀ a ∈ (sampleProg.blocks.flatten.flatMap NStmt.args), (match a with
          | .name n => decide (∀ c ∈ n, c ≠ '"' ∧ c ≠ '\\' ∧ c ≠ '\n') | .text _ => false | _ => true) = true := by decide +kernel
      have := this a ha
      cases a <;> first | trivial | (simp only [decide_eq_true_eq] at this; exact this) | (simp at this)
    refine ⟨?_, hq⟩
    have he : ∀ a ∈ (sampleProg.blocks.flatten.flatMap NStmt.args), ∀ e ∈ a.entities,
        e = .basicType cPoint ∨ e = .fieldOffset cPoint "y".toList ∨ e = .classVar cPoint "$MAX".toList := by decide +kernel
    intro e hea
    rcases he a ha e hea with rfl | rfl | rfl
    · exact tidy_point
    · exact ⟨tidy_point, Or.inr (tidyWord_of (by decide +kernel))⟩
    · exact ⟨tidy_point, "MAX".toList, by decide +kernel, tidyWord_of (by decide +kernel)⟩
  rintro i ⟨b, hb, hi⟩ a ha
  exact hm a (List.mem_flatMap.2 ⟨i, List.mem_flatten.2 ⟨b, hb, hi⟩, ha⟩)

/-- The method gets a field, takes a case of a switch, makes a string with any bytes, warns, reads a class variable, makes a call which
throws, adds the stack trace and leaves. -/
example : runV logMachine useRt (sampleCode 2#32) 20 log0 = .finished
    { calls := [(.GET_FIELD_INT, [.sym .env, .sym .stack, .addr .int 0#32, .content 0#64, .offset 8, .sym .addrErrorId, .sym .objectDataOffset]),
                (.NEW_STRING, [.sym .env, .sym .stack, .addr .object 1#32, .str [104, 105, 10, 34, 0, 255], .num 6#32, .sym .addrErrorId]),
                (.WARN, [.sym .env, .sym .stack, .content 0#64, .str (bytesOf cPoint), .str (bytesOf "run".toList),
                  .str (bytesOf "lib/Math/Point_3D.spvm".toList), .num 30#32]),
                (.GET_CLASS_VAR_INT, [.sym .env, .sym .stack, .place .int 1#32, .classVar 2 0]),
                (.CALL_INSTANCE_METHOD, [.sym .env, .sym .stack, .str (bytesOf cPoint), .str (bytesOf "new".toList), .num 1#32, .sym .addrErrorId])],
      traces := [(some (.method 2 1), 31#32)], top := 0#32, error := 10#32 } := by decide +kernel

example : ∃ fn, generate buildRt (sampleCode 1#32) = some fn ∧ ∀ n s, logMachine.mortalTop s = 0#32 →
    runC logMachine useRt fn n s = runV logMachine useRt (sampleCode 2#32) n s :=
  precompiled_as_interpreted_partial logMachine log_laws buildRt useRt sample_distinct.1 sample_distinct.2 _ _ sampleProg sample_said.1
    sample_said.2 sample_shaped sample_ok

example : readLit .plain "A\\x41\\n\"".toList = none ∧ readLit .plain "\\x414".toList = none ∧ hexText [65, 4] = "\\x41\\x04".toList := by
  decide +kernel

/-! ## Where the two differ -/

/-- The end of a run, found by running. -/
theorem fin_of {σ} {q : σ → Prop} [DecidablePred q] {r : Res σ} (h : (match r with | .finished s => decide (q s) | _ => false) = true) :
    ∃ s, r = .finished s ∧ q s := by
  cases r with
  | finished s => exact ⟨s, rfl, by simpa using h⟩
  | _ => simp at h

/-- A class with a method which calls `Foo_->get` and `Foo->_get`. -/
def clashRt : Runtime :=
  [{ intClass with name := "Foo_".toList, methods := [⟨"get".toList, 0⟩] }, { intClass with name := "Foo".toList, methods := [⟨"_get".toList, 1⟩] },
   { intClass with name := "Main".toList, methods := [⟨"main".toList, 2⟩] }]

def clashCode : Code :=
  { cls := 2#32, meth := 0#32, mortalLen := 0
    ops := [⟨.CALL_CLASS_METHOD, 0#32, 0#32, 0#32, 0#16⟩, ⟨.CALL_CLASS_METHOD, 1#32, 0#32, 0#32, 0#16⟩, ⟨.END_METHOD, 0#32, 0#32, 0#32, 0#16⟩] }

/-- Names which are not tidy: a method which calls `Foo_->get` and `Foo->_get` in the interpreter calls `Foo_->get` twice when it is
precompiled. -/
theorem precompiled_names_violated : Distinct clashRt ∧ (∃ p, says clashRt clashCode = some p ∧ Shaped p 0) ∧
    (∃ s, runV logMachine clashRt clashCode 5 log0 = .finished s ∧
      s.calls.map (fun c => c.2[3]?) = [some (.method 0 0), some (.method 1 0)]) ∧
    ∃ fn, generate clashRt clashCode = some fn ∧ ∃ s, runC logMachine clashRt fn 5 log0 = .finished s ∧
      s.calls.map (fun c => c.2[3]?) = [some (.method 0 0), some (.method 0 0)] := by
  refine ⟨distinct_of (by decide +kernel) (by decide +kernel) (by decide +kernel), ?_, ?_, ?_⟩
  · exact ⟨(says clashRt clashCode).get (by decide +kernel), by decide +kernel,
      shaped_of ((says clashRt clashCode).get (by decide +kernel)).blocks.dropLast (by decide +kernel) (by decide +kernel) (by decide +kernel)⟩
  · exact ⟨_, rfl, by decide +kernel⟩
  · refine ⟨(generate clashRt clashCode).get (by decide +kernel), by decide +kernel, ?_⟩
    exact fin_of (r := runC logMachine clashRt ((generate clashRt clashCode).get (by decide +kernel)) 5 log0)
      (q := fun (s : Log) => s.calls.map (fun c => c.2[3]?) = [some (.method 0 0), some (.method 0 0)]) (by decide +kernel)

/-- The same class in a file with a backslash and in a file with a quote in its path. -/
def fileRt (f : Name) : Runtime := [{ intClass with name := "Main".toList, file := f, methods := [⟨"main".toList, 0⟩] }]

def warnCode : Code :=
  { cls := 0#32, meth := 0#32, mortalLen := 0, ops := [⟨.WARN, 0#32, 1#32, 0#32, 0#16⟩, ⟨.END_METHOD, 0#32, 0#32, 0#32, 0#16⟩] }

/-- The path of the file is written between quotes as it is: `warn` in a class in the file `lib\new.spvm` prints another path when it is
precompiled, and in the file `a"b.spvm` the C code does not compile. -/
theorem precompiled_path_violated :
    (∀ f ∈ ["lib\\new.spvm".toList, "a\"b.spvm".toList], Distinct (fileRt f) ∧ ∃ s, runV logMachine (fileRt f) warnCode 5 log0 = .finished s ∧
      s.calls.map (fun c => c.2[5]?) = [some (.str (bytesOf f))]) ∧
    (∃ fn, generate (fileRt "lib\\new.spvm".toList) warnCode = some fn ∧ ∃ s, runC logMachine (fileRt "lib\\new.spvm".toList) fn 5 log0 = .finished s ∧
      s.calls.map (fun c => c.2[5]?) = [some (.str (bytesOf "lib\new.spvm".toList))]) ∧
    ∃ fn, generate (fileRt "a\"b.spvm".toList) warnCode = some fn ∧ runC logMachine (fileRt "a\"b.spvm".toList) fn 5 log0 = .bad := by
  refine ⟨?_, ?_, ?_⟩
  · intro f hf
    simp only [List.mem_cons, List.not_mem_nil, or_false] at hf
    rcases hf with rfl | rfl
    · exact ⟨distinct_of (by decide +kernel) (by decide +kernel) (by decide +kernel), _, rfl, by decide +kernel⟩
    · exact ⟨distinct_of (by decide +kernel) (by decide +kernel) (by decide +kernel), _, rfl, by decide +kernel⟩
  · exact ⟨(generate (fileRt "lib\\new.spvm".toList) warnCode).get (by decide +kernel), by decide +kernel, _, rfl, by decide +kernel⟩
  · exact ⟨(generate (fileRt "a\"b.spvm".toList) warnCode).get (by decide +kernel), by decide +kernel, by decide +kernel⟩

end SPVM.Precomp
