import Verif.Lemmas.ExprVal
/-!
# Numeric expressions: from the checked tree to the opcodes

`sem` gives a checked tree a meaning by values: every operand is a value from the moment it is evaluated.  The opcodes read operands
from variables instead; `code_correct` shows that this makes no difference for trees that are `Good`.
-/
namespace SPVM
namespace Expr

inductive Sem (φ : Type) where
  | val (m : Mem φ) (x : Val φ)
  | die (msg : String) (m : Mem φ)
  | ub

def Sem.next {φ} (s : Sem φ) (k : Mem φ → Val φ → Sem φ) : Sem φ :=
  match s with
  | .val m x => k m x
  | .die msg m => .die msg m
  | .ub => .ub

def lift {φ} (m : Mem φ) : Out (Val φ) → Sem φ
  | .ok x => .val m x
  | .die msg => .die msg m
  | .ub => .ub

def unVal {φ} (F : Fl φ) (o : UnOp) (t : NT) (x : Val φ) : Out (Val φ) :=
  match o with
  | .plus => .ok x
  | .minus => negVal F t x
  | .bitNot => notVal t x

def sem {φ} (F : Fl φ) : Op φ → Mem φ → Sem φ
  | .var v, m => .val m (m v.ty v.id)
  | .const _ c, m => .val m c
  | .cast t e, m => (sem F e m).next fun m x => lift m (convVal F (typeOf e) t x)
  | .un o e, m => (sem F e m).next fun m x => lift m (unVal F o (typeOf e) x)
  | .bin o _ a b, m => (sem F a m).next fun m x => (sem F b m).next fun m y => lift m (binVal F o (typeOf a) x y)
  | .assign v e, m => (sem F e m).next fun m x => .val (m.set v.ty v.id x) x
  | .seq a b, m => (sem F a m).next fun m _ => sem F b m

def opAssigned {φ} : Op φ → List MVar
  | .var _ => []
  | .const _ _ => []
  | .cast _ e => opAssigned e
  | .un _ e => opAssigned e
  | .bin _ _ a b => opAssigned a ++ opAssigned b
  | .assign v e => v :: opAssigned e
  | .seq a b => opAssigned a ++ opAssigned b

def opCopies {φ} : Op φ → Bool
  | .var _ => true
  | .assign _ _ => true
  | _ => false

def opHolder {φ} : Op φ → Option MVar
  | .var v => some v
  | .assign v e => if opCopies e then opHolder e else some v
  | .seq _ b => opHolder b
  | _ => none

def opIsSeq {φ} : Op φ → Bool
  | .seq _ _ => true
  | _ => false

def opLast {φ} : Op φ → Option (Op φ)
  | .seq _ b => some b
  | _ => none

def NonTmp (v : VarId) : Prop := ∀ i, v ≠ .tmp i

def IsWide (t : NT) : Prop := t ≠ .byte ∧ t ≠ .short
def IsWideInt (t : NT) : Prop := t = .int ∨ t = .long

/-- The operand types of a checked binary operator. -/
def BinTypes (o : BinOp) (a b : NT) : Prop :=
  b = in2Ty o a ∧
  match o with
  | .add | .sub | .mul | .div | .eq | .ne | .gt | .ge | .lt | .le | .cmp => IsWide a
  | .mod | .bitAnd | .bitOr | .bitXor | .shl | .sar | .shr => IsWideInt a
  | .divUInt | .modUInt => a = .int
  | .divULong | .modULong => a = .long

/-- What the checker guarantees; with `K` also what the code relies on. -/
def Good {φ} (K : Prop) : Op φ → Prop
  | .var v => NonTmp v.id
  | .const t _ => t ≠ .short
  | .cast t e => Good K e ∧ typeOf e ≠ t
  | .un o e => Good K e ∧ IsWide (typeOf e) ∧ (o = .bitNot → IsWideInt (typeOf e))
  | .bin o _ a b => Good K a ∧ Good K b ∧ BinTypes o (typeOf a) (typeOf b) ∧ (K → ∀ p, opHolder a = some p → p ∉ opAssigned b)
  | .assign v e => Good K e ∧ NonTmp v.id ∧ typeOf e = v.ty ∧ (K → ∀ l, opLast e = some l → opIsSeq l = false)
  | .seq a b => Good K a ∧ Good K b

/-! ## Basic facts -/

theorem Mem.set_same {φ} (m : Mem φ) (t v x) : m.set t v x t v = x := by simp [Mem.set]
theorem Mem.set_ne {φ} (m : Mem φ) (t v x s w) (h : ¬ (s = t ∧ w = v)) : m.set t v x s w = m s w := by
  unfold Mem.set; rw [if_neg h]

theorem run_append {φ} (F : Fl φ) (a b : List (Instr φ)) (m : Mem φ) :
    run F (a ++ b) m = match run F a m with
      | .ok m => run F b m
      | .die msg m => .die msg m
      | .ub => .ub := by
  induction a generalizing m with
  | nil => rfl
  | cons i is ih =>
    simp only [List.cons_append, run]
    cases step F m i with
    | ok m1 => exact ih m1
    | die msg m1 => rfl
    | ub => rfl

theorem run_append_ok {φ} {F : Fl φ} {a : List (Instr φ)} (b : List (Instr φ)) {m m1 : Mem φ} (h : run F a m = .ok m1) :
    run F (a ++ b) m = run F b m1 := by rw [run_append, h]
theorem run_append_die {φ} {F : Fl φ} {a : List (Instr φ)} (b : List (Instr φ)) {m m1 : Mem φ} {msg} (h : run F a m = .die msg m1) :
    run F (a ++ b) m = .die msg m1 := by rw [run_append, h]
theorem run_append_ub {φ} {F : Fl φ} {a : List (Instr φ)} (b : List (Instr φ)) {m : Mem φ} (h : run F a m = .ub) :
    run F (a ++ b) m = .ub := by rw [run_append, h]
theorem run_one {φ} (F : Fl φ) (i : Instr φ) (m : Mem φ) : run F [i] m = step F m i := by
  simp only [run]; cases step F m i <;> rfl

/-- Only assigned variables change. -/
theorem sem_frame {φ} (F : Fl φ) (c : Op φ) : ∀ (ms ms1 : Mem φ) (x : Val φ), sem F c ms = .val ms1 x →
    ∀ t v, (⟨t, v⟩ : MVar) ∉ opAssigned c → ms1 t v = ms t v := by
  induction c with
  | var w => intro ms ms1 x h t v hv; injection h with h _; rw [h]
  | const t0 c => intro ms ms1 x h t v hv; injection h with h _; rw [h]
  | cast t0 e ih =>
    intro ms ms1 x h t v hv
    simp only [sem] at h
    cases he : sem F e ms with
    | val m2 y =>
      rw [he] at h; simp only [Sem.next] at h
      cases hc : convVal F (typeOf e) t0 y with
      | ok z => rw [hc] at h; injection h with h _; rw [← h]; exact ih _ _ _ he t v hv
      | die msg => rw [hc] at h; cases h
      | ub => rw [hc] at h; cases h
    | die msg m2 => rw [he] at h; cases h
    | ub => rw [he] at h; cases h
  | un o e ih =>
    intro ms ms1 x h t v hv
    simp only [sem] at h
    cases he : sem F e ms with
    | val m2 y =>
      rw [he] at h; simp only [Sem.next] at h
      cases hc : unVal F o (typeOf e) y with
      | ok z => rw [hc] at h; injection h with h _; rw [← h]; exact ih _ _ _ he t v hv
      | die msg => rw [hc] at h; cases h
      | ub => rw [hc] at h; cases h
    | die msg m2 => rw [he] at h; cases h
    | ub => rw [he] at h; cases h
  | bin o n a b iha ihb =>
    intro ms ms1 x h t v hv
    simp only [opAssigned, List.mem_append, not_or] at hv
    simp only [sem] at h
    cases ha : sem F a ms with
    | val m2 y =>
      rw [ha] at h; simp only [Sem.next] at h
      cases hb : sem F b m2 with
      | val m3 z =>
        rw [hb] at h; simp only at h
        cases hc : binVal F o (typeOf a) y z with
        | ok w => rw [hc] at h; injection h with h _; rw [← h, ihb _ _ _ hb t v hv.2, iha _ _ _ ha t v hv.1]
        | die msg => rw [hc] at h; cases h
        | ub => rw [hc] at h; cases h
      | die msg m2 => rw [hb] at h; cases h
      | ub => rw [hb] at h; cases h
    | die msg m2 => rw [ha] at h; cases h
    | ub => rw [ha] at h; cases h
  | assign w e ih =>
    intro ms ms1 x h t v hv
    simp only [opAssigned, List.mem_cons, not_or] at hv
    simp only [sem] at h
    cases he : sem F e ms with
    | val m2 y =>
      rw [he] at h; simp only [Sem.next] at h
      injection h with h _
      rw [← h, Mem.set_ne _ _ _ _ _ _ (fun hh => hv.1 (by cases w; simp only at hh; rw [hh.1, hh.2])), ih _ _ _ he t v hv.2]
    | die msg m2 => rw [he] at h; cases h
    | ub => rw [he] at h; cases h
  | seq a b iha ihb =>
    intro ms ms1 x h t v hv
    simp only [opAssigned, List.mem_append, not_or] at hv
    simp only [sem] at h
    cases ha : sem F a ms with
    | val m2 y =>
      rw [ha] at h; simp only [Sem.next] at h
      rw [ihb _ _ _ h t v hv.2, iha _ _ _ ha t v hv.1]
    | die msg m2 => rw [ha] at h; cases h
    | ub => rw [ha] at h; cases h

/-! ## The simulation -/

/-- The two memories agree on everything but the temporary variables. -/
def Agree {φ} (m ms : Mem φ) : Prop := ∀ t v, NonTmp v → m t v = ms t v

/-- The temporary variables below `k` are unchanged. -/
def Below {φ} (k : Nat) (m m1 : Mem φ) : Prop := ∀ t i, i < k → m1 t (.tmp i) = m t (.tmp i)

theorem Below.refl {φ} (k : Nat) (m : Mem φ) : Below k m m := fun _ _ _ => rfl
theorem Below.trans {φ} {k k' : Nat} {m m1 m2 : Mem φ} (h : Below k m m1) (h' : Below k' m1 m2) (hk : k ≤ k') : Below k m m2 :=
  fun t i hi => by rw [h' t i (by omega), h t i hi]

theorem Agree.set {φ} {m ms : Mem φ} (h : Agree m ms) (t v x) : Agree (m.set t v x) (ms.set t v x) := by
  intro s w hw
  unfold Mem.set
  split
  · rfl
  · exact h s w hw
theorem Agree.set_tmp {φ} {m ms : Mem φ} (h : Agree m ms) (t i x) : Agree (m.set t (.tmp i) x) ms := by
  intro s w hw
  rw [Mem.set_ne _ _ _ _ _ _ (fun hh => hw i hh.2)]
  exact h s w hw

/-- The code leaves the value in `p`. -/
def Leaves {φ} (F : Fl φ) (code : List (Instr φ)) (m : Mem φ) (p : MVar) (k : Nat) : Sem φ → Prop
  | .val ms1 x => ∃ m1, run F code m = .ok m1 ∧ Agree m1 ms1 ∧ Below k m m1 ∧ m1 p.ty p.id = x
  | .die msg ms1 => ∃ m1, run F code m = .die msg m1 ∧ Agree m1 ms1
  | .ub => run F code m = .ub

/-- The code stores the value in `d` as its last action. -/
def Stores {φ} (F : Fl φ) (code : List (Instr φ)) (m : Mem φ) (d : MVar) (k : Nat) : Sem φ → Prop
  | .val ms1 x => ∃ m1, run F code m = .ok (m1.set d.ty d.id x) ∧ Agree m1 ms1 ∧ Below k m m1
  | .die msg ms1 => ∃ m1, run F code m = .die msg m1 ∧ Agree m1 ms1
  | .ub => run F code m = .ub

def P {φ} (F : Fl φ) (c : Op φ) : Prop := ∀ k,
  k ≤ (temps false c k).2 ∧ typeOf (temps false c k).1 = typeOf c ∧
  ∃ code p, emit (temps false c k).1 = .ok code ∧ opVar (temps false c k).1 = .ok p ∧ p.ty = typeOf c ∧
    ((opHolder c = some p ∧ NonTmp p.id) ∨ ∃ i, p.id = .tmp i ∧ k ≤ i ∧ i < (temps false c k).2) ∧
    ∀ m ms, Agree m ms → Leaves F code m p k (sem F c ms)

def Q {φ} (F : Fl φ) (c : Op φ) : Prop := ∀ k,
  k ≤ (temps true c k).2 ∧ typeOf (temps true c k).1 = typeOf c ∧
  ∀ d : MVar, d.ty = typeOf c → ∃ code, emit (.assign d (temps true c k).1) = .ok code ∧
    ∀ m ms, Agree m ms → Stores F code m d k (sem F c ms)

/-- Variables and assignments. -/
theorem opcode_copy {φ} (d : MVar) (c : Op φ) (h : opCopies c = true) (p : MVar) (hp : opVar c = .ok p) :
    opcode d c = .ok [.move d.ty d.id p.id] := by
  cases c <;> simp only [opCopies] at h <;> try cases h
  · injection hp with hp; subst hp; rfl
  · simp only [opcode, hp]; rfl

theorem opcode_seq {φ} (d : MVar) (a c : Op φ) (h : opCopies c = true) (p : MVar) (hp : opVar c = .ok p) :
    opcode d (.seq a c) = .ok [.move d.ty d.id p.id] := by
  cases c <;> simp only [opCopies] at h <;> try cases h
  · injection hp with hp; subst hp; rfl
  · simp only [opcode, hp]; rfl

theorem temps_copies {φ} (c : Op φ) (k : Nat) (h : opIsSeq c = false) : opCopies (temps false c k).1 = true := by
  cases c <;> first | rfl | cases h

theorem temps_true {φ} (c : Op φ) (k : Nat) (h : opCopies c = true ∨ opIsSeq c = true) : temps true c k = temps false c k := by
  cases c <;> first | rfl | (rcases h with h | h <;> cases h)

/-- A variable, an assignment or a sequence as the source of an assignment: a move. -/
theorem Q_of_P {φ} (F : Fl φ) (c : Op φ) (h : opCopies c = true ∨ opIsSeq c = true) (hl : ∀ l, opLast c = some l → opIsSeq l = false)
    (hP : P F c) : Q F c := by
  intro k
  rw [temps_true c k h]
  obtain ⟨h1, h2, code, p, h3, h4, h5, h6, h7⟩ := hP k
  refine ⟨h1, h2, fun d hd => ⟨code ++ [.move d.ty d.id p.id], ?_, ?_⟩⟩
  · have : opcode d (temps false c k).1 = .ok [.move d.ty d.id p.id] := by
      cases c with
      | var v => exact opcode_copy d _ rfl p h4
      | assign v e => exact opcode_copy d _ rfl p h4
      | seq a b => exact opcode_seq d _ _ (temps_copies b _ (hl b rfl)) p h4
      | _ => rcases h with h | h <;> cases h
    simp only [emit, h3, this]; rfl
  · intro m ms hm
    have h := h7 m ms hm
    cases hs : sem F c ms with
    | val ms1 x =>
      rw [hs] at h
      obtain ⟨m1, g1, g2, g3, g4⟩ := h
      refine ⟨m1, ?_, g2, g3⟩
      rw [run_append_ok _ g1, run_one]
      simp only [step]
      rw [hd, ← h5, g4]
    | die msg ms1 =>
      rw [hs] at h
      obtain ⟨m1, g1, g2⟩ := h
      exact ⟨m1, run_append_die _ g1, g2⟩
    | ub =>
      rw [hs] at h
      exact run_append_ub _ h

/-- The other operators get a temporary variable. -/
theorem P_of_Q {φ} (F : Fl φ) (c : Op φ) (ht : ∀ k, temps false c k = toVar false (temps true c k).1 (temps true c k).2)
    (hv : ∀ k d, opVar (.assign d (temps true c k).1) = .ok d) (hQ : Q F c) : P F c := by
  intro k
  obtain ⟨h1, h2, h3⟩ := hQ k
  rw [ht k]
  simp only [toVar, if_neg (show ¬ (false = true) by decide)]
  obtain ⟨code, h4, h5⟩ := h3 ⟨typeOf (temps true c k).1, .tmp (temps true c k).2⟩ h2
  refine ⟨by omega, h2, code, _, h4, hv k _, h2, .inr ⟨_, rfl, h1, by omega⟩, ?_⟩
  intro m ms hm
  have h := h5 m ms hm
  cases hs : sem F c ms with
  | val ms1 x =>
    rw [hs] at h
    obtain ⟨m1, g1, g2, g3⟩ := h
    refine ⟨_, g1, g2.set_tmp _ _ _, ?_, Mem.set_same _ _ _ _⟩
    intro t i hi
    rw [Mem.set_ne _ _ _ _ _ _ (fun hh => by have := hh.2; injection this; omega)]
    exact g3 t i hi
  | die msg ms1 =>
    rw [hs] at h
    exact h
  | ub =>
    rw [hs] at h
    exact h

theorem stores_store {φ} {F : Fl φ} {code : List (Instr φ)} {m m1 ms1 : Mem φ} {d : MVar} {k : Nat} {i : Instr φ} {r : Out (Val φ)}
    (h1 : run F code m = .ok m1) (h2 : Agree m1 ms1) (h3 : Below k m m1) (hi : step F m1 i = store m1 d.ty d.id r) :
    Stores F (code ++ [i]) m d k (lift ms1 r) := by
  cases r with
  | ok x => exact ⟨m1, by rw [run_append_ok _ h1, run_one, hi]; rfl, h2, h3⟩
  | die msg => exact ⟨m1, by rw [run_append_ok _ h1, run_one, hi]; rfl, h2⟩
  | ub => show run F (code ++ [i]) m = .ub; rw [run_append_ok _ h1, run_one, hi]; rfl

theorem Q_const {φ} (F : Fl φ) (t : NT) (c : Val φ) (h : t ≠ .short) : Q F (.const t c) := by
  intro k
  refine ⟨Nat.le_refl _, rfl, fun d hd => ⟨[.const d.ty d.id c], ?_, ?_⟩⟩
  · have hd' : d.ty = t := hd
    simp only [temps, toVar, if_pos, emit, opcode]
    rw [if_neg (by rw [hd']; exact h), if_pos hd'.symm]; rfl
  · intro m ms hm
    exact ⟨m, rfl, hm, Below.refl _ _⟩

theorem Q_cast {φ} (F : Fl φ) (t : NT) (e : Op φ) (h : typeOf e ≠ t) (hP : P F e) : Q F (.cast t e) := by
  intro k
  obtain ⟨h1, h2, code, p, h3, h4, h5, h6, h7⟩ := hP k
  refine ⟨h1, rfl, fun d hd => ⟨code ++ [.conv (typeOf e) t d.id p.id], ?_, ?_⟩⟩
  · simp only [temps, toVar, if_pos, emit, opcode]
    rw [h3, h4, h2]; simp only [Out.ok_bind]; rw [if_neg h]; rfl
  · intro m ms hm
    have g := h7 m ms hm
    simp only [sem]
    cases hs : sem F e ms with
    | val ms1 x =>
      rw [hs] at g
      obtain ⟨m1, g1, g2, g3, g4⟩ := g
      refine stores_store g1 g2 g3 ?_
      have hd' : d.ty = t := hd
      simp only [step]
      rw [hd', ← h5, g4]
    | die msg ms1 =>
      rw [hs] at g
      obtain ⟨m1, g1, g2⟩ := g
      exact ⟨m1, run_append_die _ g1, g2⟩
    | ub =>
      rw [hs] at g
      exact run_append_ub _ g

theorem Q_un {φ} (F : Fl φ) (o : UnOp) (e : Op φ) (hw : IsWide (typeOf e)) (hi : o = .bitNot → IsWideInt (typeOf e)) (hP : P F e) :
    Q F (.un o e) := by
  intro k
  obtain ⟨h1, h2, code, p, h3, h4, h5, h6, h7⟩ := hP k
  have key : ∀ d : MVar, d.ty = typeOf e → ∃ i, opcode d (.un o (temps false e k).1) = .ok [i] ∧
      ∀ m, step F m i = store m d.ty d.id (unVal F o (typeOf e) (m p.ty p.id)) := by
    intro d hd
    cases o with
    | plus =>
      refine ⟨.move d.ty d.id p.id, ?_, fun m => ?_⟩
      · simp only [opcode, h4, Out.ok_bind, hd]
        unfold IsWide at hw
        cases ht : typeOf e <;> simp_all [wide]
      · simp only [step, unVal, store]; rw [hd, h5]
    | minus =>
      refine ⟨.negate d.ty d.id p.id, ?_, fun m => ?_⟩
      · simp only [opcode, h4, Out.ok_bind, hd]
        unfold IsWide at hw
        cases ht : typeOf e <;> simp_all [wide]
      · simp only [step, unVal]; rw [hd, h5]
    | bitNot =>
      refine ⟨.bitNot d.ty d.id p.id, ?_, fun m => ?_⟩
      · simp only [opcode, h4, Out.ok_bind, hd]
        rcases hi rfl with h | h <;> rw [h] <;> rfl
      · simp only [step, unVal]; rw [hd, h5]
  refine ⟨h1, h2, fun d hd => ?_⟩
  obtain ⟨i, k1, k2⟩ := key d hd
  refine ⟨code ++ [i], ?_, ?_⟩
  · simp only [temps, toVar, if_pos, emit]
    rw [h3, k1]; rfl
  · intro m ms hm
    have g := h7 m ms hm
    simp only [sem]
    cases hs : sem F e ms with
    | val ms1 x =>
      rw [hs] at g
      obtain ⟨m1, g1, g2, g3, g4⟩ := g
      refine stores_store g1 g2 g3 ?_
      rw [k2, g4]
    | die msg ms1 =>
      rw [hs] at g
      obtain ⟨m1, g1, g2⟩ := g
      exact ⟨m1, run_append_die _ g1, g2⟩
    | ub =>
      rw [hs] at g
      exact run_append_ub _ g

theorem typeOf_bin {φ} (o : BinOp) (n) (a b : Op φ) : typeOf (.bin o n a b) = outTy o (typeOf a) := by cases o <;> rfl

theorem Q_bin {φ} (F : Fl φ) (o : BinOp) (n : Bool) (a b : Op φ) (ht : BinTypes o (typeOf a) (typeOf b))
    (hc : ∀ p, opHolder a = some p → p ∉ opAssigned b) (ha : P F a) (hb : P F b) : Q F (.bin o n a b) := by
  intro k
  obtain ⟨a1, a2, codeA, p, a3, a4, a5, a6, a7⟩ := ha k
  obtain ⟨b1, b2, codeB, q, b3, b4, b5, b6, b7⟩ := hb (temps false a k).2
  have key : ∀ d : MVar, d.ty = outTy o (typeOf a) → 
      opcode d (.bin o n (temps false a k).1 (temps false b (temps false a k).2).1) = .ok [.bin o (typeOf a) d.id p.id q.id] := by
    intro d hd
    obtain ⟨_, ht⟩ := ht
    simp only [opcode, opcodeBin, a4, b4, Out.ok_bind, a2]
    cases o <;> simp only [outTy] at hd <;> simp only [IsWide] at ht <;>
      first
      | (rw [hd]; cases h : typeOf a <;> simp_all [wide]; done)
      | (cases h : typeOf a <;> simp_all; done)
      | (rcases ht with ht | ht <;> rw [hd, ht] <;> rfl)
      | (rw [ht]; rfl)
  refine ⟨by have h : (temps true (.bin o n a b) k).2 = (temps false b (temps false a k).2).2 := rfl
             omega, ?_, fun d hd => ?_⟩
  · show typeOf (.bin o n _ _) = _
    rw [typeOf_bin, typeOf_bin, a2]
  rw [typeOf_bin] at hd
  refine ⟨codeA ++ codeB ++ [.bin o (typeOf a) d.id p.id q.id], ?_, ?_⟩
  · simp only [temps, toVar, if_pos, emit]
    rw [a3, b3, key d hd]; rfl
  · intro m ms hm
    have g := a7 m ms hm
    simp only [sem]
    cases hs : sem F a ms with
    | val ms1 x =>
      rw [hs] at g
      obtain ⟨m1, g1, g2, g3, g4⟩ := g
      have f := b7 m1 ms1 g2
      simp only [Sem.next]
      cases hs' : sem F b ms1 with
      | val ms2 y =>
        rw [hs'] at f
        obtain ⟨m2, f1, f2, f3, f4⟩ := f
        refine stores_store (by rw [run_append_ok _ g1, f1]) f2 (g3.trans f3 a1) ?_
        have hp : m2 p.ty p.id = x := by
          rcases a6 with ⟨h1, h2⟩ | ⟨i, h1, h2, h3⟩
          · rw [f2 p.ty p.id h2, sem_frame F b ms1 ms2 y hs' p.ty p.id (hc p h1), ← g2 p.ty p.id h2, g4]
          · rw [h1] at g4 ⊢
            rw [f3 p.ty i h3, g4]
        simp only [step]
        rw [← ht.1, ← b5, f4, ← a5, hp, hd, a5]
      | die msg ms1 =>
        rw [hs'] at f
        obtain ⟨m2, f1, f2⟩ := f
        exact ⟨m2, run_append_die _ (by rw [run_append_ok _ g1, f1]), f2⟩
      | ub =>
        rw [hs'] at f
        exact run_append_ub _ (by rw [run_append_ok _ g1]; exact f)
    | die msg ms1 =>
      rw [hs] at g
      obtain ⟨m1, g1, g2⟩ := g
      exact ⟨m1, run_append_die _ (run_append_die _ g1), g2⟩
    | ub =>
      rw [hs] at g
      exact run_append_ub _ (run_append_ub _ g)

theorem P_seq {φ} (F : Fl φ) (a b : Op φ) (ha : P F a) (hb : P F b) : P F (.seq a b) := by
  intro k
  obtain ⟨a1, a2, codeA, p, a3, a4, a5, a6, a7⟩ := ha k
  obtain ⟨b1, b2, codeB, q, b3, b4, b5, b6, b7⟩ := hb (temps false a k).2
  refine ⟨Nat.le_trans a1 b1, b2, codeA ++ codeB, q, ?_, b4, b5, ?_, ?_⟩
  · simp only [temps, emit]
    rw [a3, b3]; rfl
  · rcases b6 with h | ⟨i, h1, h2, h3⟩
    · exact .inl h
    · exact .inr ⟨i, h1, Nat.le_trans a1 h2, h3⟩
  · intro m ms hm
    have g := a7 m ms hm
    simp only [sem]
    cases hs : sem F a ms with
    | val ms1 x =>
      rw [hs] at g
      obtain ⟨m1, g1, g2, g3, g4⟩ := g
      have f := b7 m1 ms1 g2
      simp only [Sem.next]
      cases hs' : sem F b ms1 with
      | val ms2 y =>
        rw [hs'] at f
        obtain ⟨m2, f1, f2, f3, f4⟩ := f
        exact ⟨m2, by rw [run_append_ok _ g1, f1], f2, g3.trans f3 a1, f4⟩
      | die msg ms1 =>
        rw [hs'] at f
        obtain ⟨m2, f1, f2⟩ := f
        exact ⟨m2, by rw [run_append_ok _ g1, f1], f2⟩
      | ub =>
        rw [hs'] at f
        show run F _ m = .ub
        rw [run_append_ok _ g1]; exact f
    | die msg ms1 =>
      rw [hs] at g
      obtain ⟨m1, g1, g2⟩ := g
      exact ⟨m1, run_append_die _ g1, g2⟩
    | ub =>
      rw [hs] at g
      exact run_append_ub _ g

/-- An assignment of a variable or of an assignment: the operand is the innermost source. -/
theorem P_assign_copy {φ} (F : Fl φ) (v : MVar) (e : Op φ) (h : opCopies e = true) (hv : NonTmp v.id) (ht : typeOf e = v.ty) (hP : P F e) :
    P F (.assign v e) := by
  intro k
  obtain ⟨h1, h2, code, p, h3, h4, h5, h6, h7⟩ := hP k
  have e1 : temps false (.assign v e) k = (.assign v (temps false e k).1, (temps false e k).2) := by
    simp only [temps]; rw [temps_true e k (.inl h)]
  rw [e1]
  have hc : opCopies (temps false e k).1 = true := temps_copies e k (by cases e <;> first | rfl | cases h)
  have e2 : opVar (.assign v (temps false e k).1) = .ok p := by
    cases hx : (temps false e k).1 with
    | var w => rw [hx] at h4; exact h4
    | assign w f => rw [hx] at h4; rw [opVar]; exact h4
    | _ => rw [hx] at hc; cases hc
  refine ⟨h1, rfl, code ++ [.move v.ty v.id p.id], p, ?_, e2, by rw [h5, ht]; rfl, ?_, ?_⟩
  · simp only [emit]
    rw [h3, opcode_copy v _ hc p h4]; rfl
  · rcases h6 with h | h
    · exact .inl ⟨by simp only [opHolder]; rw [if_pos (by assumption)]; exact h.1, h.2⟩
    · exact .inr h
  · intro m ms hm
    have g := h7 m ms hm
    simp only [sem]
    cases hs : sem F e ms with
    | val ms1 x =>
      rw [hs] at g
      obtain ⟨m1, g1, g2, g3, g4⟩ := g
      have g4' : m1 v.ty p.id = x := by rw [← ht, ← h5]; exact g4
      refine ⟨m1.set v.ty v.id x, ?_, g2.set _ _ _, ?_, ?_⟩
      · rw [run_append_ok _ g1, run_one]; simp only [step]; rw [g4']
      · intro t i hi
        rw [Mem.set_ne _ _ _ _ _ _ (fun hh => hv i hh.2.symm)]
        exact g3 t i hi
      · rw [h5, ht]
        unfold Mem.set
        split
        · rfl
        · exact g4'
    | die msg ms1 =>
      rw [hs] at g
      obtain ⟨m1, g1, g2⟩ := g
      exact ⟨m1, run_append_die _ g1, g2⟩
    | ub =>
      rw [hs] at g
      exact run_append_ub _ g

theorem temps_true_not {φ} (e : Op φ) (k : Nat) (h : opCopies e = false) (v : MVar) : opVar (.assign v (temps true e k).1) = .ok v := by
  cases e <;> first | rfl | cases h

theorem P_assign {φ} (F : Fl φ) (v : MVar) (e : Op φ) (h : opCopies e = false) (hv : NonTmp v.id) (ht : typeOf e = v.ty) (hQ : Q F e) :
    P F (.assign v e) := by
  intro k
  obtain ⟨h1, h2, h3⟩ := hQ k
  obtain ⟨code, h4, h5⟩ := h3 v ht.symm
  refine ⟨h1, rfl, code, v, h4, temps_true_not e k h v, rfl, .inl ⟨by simp only [opHolder]; rw [if_neg (by rw [h]; decide)], hv⟩, ?_⟩
  intro m ms hm
  have g := h5 m ms hm
  simp only [sem]
  cases hs : sem F e ms with
  | val ms1 x =>
    rw [hs] at g
    obtain ⟨m1, g1, g2, g3⟩ := g
    refine ⟨_, g1, g2.set _ _ _, ?_, Mem.set_same _ _ _ _⟩
    intro t i hi
    rw [Mem.set_ne _ _ _ _ _ _ (fun hh => hv i hh.2.symm)]
    exact g3 t i hi
  | die msg ms1 =>
    rw [hs] at g
    exact g
  | ub =>
    rw [hs] at g
    exact g

theorem P_var {φ} (F : Fl φ) (v : MVar) (hv : NonTmp v.id) : P F (.var v : Op φ) := by
  intro k
  refine ⟨Nat.le_refl _, rfl, [], v, rfl, rfl, rfl, .inl ⟨rfl, hv⟩, ?_⟩
  intro m ms hm
  exact ⟨m, rfl, hm, Below.refl _ _, hm _ _ hv⟩

/-- The code of a good tree computes its meaning. -/
theorem code_correct {φ} (F : Fl φ) (c : Op φ) (h : Good True c) : P F c ∧ ((∀ l, opLast c = some l → opIsSeq l = false) → Q F c) := by
  induction c with
  | var v =>
    have hP := P_var F v h
    exact ⟨hP, fun hl => Q_of_P F _ (.inl rfl) hl hP⟩
  | const t c =>
    have hQ := Q_const F t c h
    exact ⟨P_of_Q F _ (fun _ => rfl) (fun _ _ => rfl) hQ, fun _ => hQ⟩
  | cast t e ih =>
    have hQ := Q_cast F t e h.2 (ih h.1).1
    exact ⟨P_of_Q F _ (fun _ => rfl) (fun _ _ => rfl) hQ, fun _ => hQ⟩
  | un o e ih =>
    have hQ := Q_un F o e h.2.1 h.2.2 (ih h.1).1
    exact ⟨P_of_Q F _ (fun _ => rfl) (fun _ _ => rfl) hQ, fun _ => hQ⟩
  | bin o n a b iha ihb =>
    have hQ := Q_bin F o n a b h.2.2.1 (h.2.2.2 trivial) (iha h.1).1 (ihb h.2.1).1
    exact ⟨P_of_Q F _ (fun _ => rfl) (fun _ _ => rfl) hQ, fun _ => hQ⟩
  | assign v e ih =>
    have hP : P F (.assign v e) := by
      cases hc : opCopies e with
      | true => exact P_assign_copy F v e hc h.2.1 h.2.2.1 (ih h.1).1
      | false => exact P_assign F v e hc h.2.1 h.2.2.1 ((ih h.1).2 (h.2.2.2 trivial))
    exact ⟨hP, fun hl => Q_of_P F _ (.inl rfl) hl hP⟩
  | seq a b iha ihb =>
    have hP := P_seq F a b (iha h.1).1 (ihb h.2).1
    exact ⟨hP, fun hl => Q_of_P F _ (.inr rfl) hl hP⟩

/-! ## There is code for every checked tree -/

/-- What the code generation relies on for an operand. -/
def Emits {φ} (c : Op φ) : Prop := ∀ k, typeOf (temps false c k).1 = typeOf c ∧
  ∃ code p, emit (temps false c k).1 = .ok code ∧ opVar (temps false c k).1 = .ok p

def EmitsAssign {φ} (c : Op φ) : Prop := ∀ k, typeOf (temps true c k).1 = typeOf c ∧
  ∀ d : MVar, d.ty = typeOf c → ∃ code, emit (.assign d (temps true c k).1) = .ok code

theorem opVar_copy {φ} (v : MVar) (c : Op φ) (h : ∃ p, opVar c = .ok p) : ∃ p, opVar (.assign v c) = .ok p := by
  obtain ⟨p, h⟩ := h
  cases c with
  | assign w f => exact ⟨p, by rw [opVar]; exact h⟩
  | var w => exact ⟨w, rfl⟩
  | seq a b => exact ⟨v, rfl⟩
  | _ => cases h

theorem emits_of_assign {φ} (c : Op φ) (ht : ∀ k, temps false c k = toVar false (temps true c k).1 (temps true c k).2)
    (hv : ∀ k d, opVar (.assign d (temps true c k).1) = .ok d) (h : EmitsAssign c) : Emits c := by
  intro k
  obtain ⟨h1, h2⟩ := h k
  rw [ht k]
  simp only [toVar, if_neg (show ¬ (false = true) by decide)]
  obtain ⟨code, h3⟩ := h2 ⟨typeOf (temps true c k).1, .tmp (temps true c k).2⟩ h1
  exact ⟨h1, code, _, h3, hv k _⟩

theorem assign_of_emits {φ} (c : Op φ) (h : opCopies c = true ∨ opIsSeq c = true) (hE : Emits c) : EmitsAssign c := by
  intro k
  rw [temps_true c k h]
  obtain ⟨h2, code, p, h3, h4⟩ := hE k
  refine ⟨h2, fun d _ => ?_⟩
  have : ∃ is, opcode d (temps false c k).1 = .ok is := by
    cases c with
    | var v => exact ⟨_, opcode_copy d _ rfl p h4⟩
    | assign v e => exact ⟨_, opcode_copy d _ rfl p h4⟩
    | seq a b =>
      cases hb : opIsSeq b with
      | false => exact ⟨_, opcode_seq d _ _ (temps_copies b _ hb) p h4⟩
      | true =>
        cases b <;> first | cases hb | skip
        exact ⟨[], rfl⟩
    | _ => rcases h with h | h <;> cases h
  obtain ⟨is, hi⟩ := this
  exact ⟨code ++ is, by simp only [emit, h3, hi]; rfl⟩

theorem emits {φ} (K : Prop) (c : Op φ) (h : Good K c) : Emits c ∧ EmitsAssign c := by
  induction c with
  | var v =>
    have hE : Emits (.var v : Op φ) := fun k => ⟨rfl, [], v, rfl, rfl⟩
    exact ⟨hE, assign_of_emits _ (.inl rfl) hE⟩
  | const t c =>
    have hA : EmitsAssign (.const t c) := by
      intro k
      refine ⟨rfl, fun d hd => ⟨[.const d.ty d.id c], ?_⟩⟩
      have hd' : d.ty = t := hd
      simp only [temps, toVar, if_pos, emit, opcode]
      rw [if_neg (by rw [hd']; exact h), if_pos hd'.symm]; rfl
    exact ⟨emits_of_assign _ (fun _ => rfl) (fun _ _ => rfl) hA, hA⟩
  | cast t e ih =>
    have hA : EmitsAssign (.cast t e) := by
      intro k
      obtain ⟨h2, code, p, h3, h4⟩ := (ih h.1).1 k
      refine ⟨rfl, fun d hd => ⟨code ++ [.conv (typeOf e) t d.id p.id], ?_⟩⟩
      simp only [temps, toVar, if_pos, emit, opcode]
      rw [h3, h4, h2]; simp only [Out.ok_bind]; rw [if_neg h.2]; rfl
    exact ⟨emits_of_assign _ (fun _ => rfl) (fun _ _ => rfl) hA, hA⟩
  | un o e ih =>
    have hA : EmitsAssign (.un o e) := by
      intro k
      obtain ⟨h2, code, p, h3, h4⟩ := (ih h.1).1 k
      refine ⟨h2, fun d hd => ?_⟩
      have hd' : d.ty = typeOf e := hd
      have : ∃ is, opcode d (.un o (temps false e k).1) = .ok is := by
        have hw := h.2.1
        cases o with
        | plus =>
          simp only [opcode, h4, Out.ok_bind, hd']
          unfold IsWide at hw
          cases ht : typeOf e <;> simp_all [wide]
        | minus =>
          simp only [opcode, h4, Out.ok_bind, hd']
          unfold IsWide at hw
          cases ht : typeOf e <;> simp_all [wide]
        | bitNot =>
          simp only [opcode, h4, Out.ok_bind, hd']
          rcases h.2.2 rfl with h | h <;> rw [h] <;> exact ⟨_, rfl⟩
      obtain ⟨is, hi⟩ := this
      exact ⟨code ++ is, by simp only [temps, toVar, if_pos, emit]; rw [h3, hi]; rfl⟩
    exact ⟨emits_of_assign _ (fun _ => rfl) (fun _ _ => rfl) hA, hA⟩
  | bin o n a b iha ihb =>
    have hA : EmitsAssign (.bin o n a b) := by
      intro k
      obtain ⟨a2, codeA, p, a3, a4⟩ := (iha h.1).1 k
      obtain ⟨b2, codeB, q, b3, b4⟩ := (ihb h.2.1).1 (temps false a k).2
      refine ⟨by show typeOf (.bin o n _ _) = _; rw [typeOf_bin, typeOf_bin, a2], fun d hd => ?_⟩
      rw [typeOf_bin] at hd
      have : ∃ is, opcode d (.bin o n (temps false a k).1 (temps false b (temps false a k).2).1) = .ok is := by
        have ht := h.2.2.1.2
        simp only [opcode, opcodeBin, a4, b4, Out.ok_bind, a2]
        cases o <;> simp only [outTy] at hd <;> simp only [IsWide] at ht <;>
          first
          | exact ⟨_, rfl⟩
          | (rw [hd]; cases h : typeOf a <;> simp_all [wide]; done)
          | (cases h : typeOf a <;> simp_all [wide]; done)
          | (rcases ht with ht | ht <;> rw [hd, ht] <;> exact ⟨_, rfl⟩)
      obtain ⟨is, hi⟩ := this
      exact ⟨codeA ++ codeB ++ is, by simp only [temps, toVar, if_pos, emit]; rw [a3, b3, hi]; rfl⟩
    exact ⟨emits_of_assign _ (fun _ => rfl) (fun _ _ => rfl) hA, hA⟩
  | assign v e ih =>
    have hE : Emits (.assign v e) := by
      intro k
      obtain ⟨h1, h2⟩ := (ih h.1).2 k
      obtain ⟨code, h3⟩ := h2 v h.2.2.1.symm
      have : ∃ p, opVar (.assign v (temps true e k).1) = .ok p := by
        cases hc : opCopies e with
        | false => exact ⟨v, temps_true_not e k hc v⟩
        | true =>
          rw [temps_true e k (.inl hc)]
          obtain ⟨_, _, p, _, hp⟩ := (ih h.1).1 k
          exact opVar_copy v _ ⟨p, hp⟩
      obtain ⟨p, hp⟩ := this
      exact ⟨rfl, code, p, h3, hp⟩
    exact ⟨hE, assign_of_emits _ (.inl rfl) hE⟩
  | seq a b iha ihb =>
    have hE : Emits (.seq a b) := by
      intro k
      obtain ⟨a2, codeA, p, a3, a4⟩ := (iha h.1).1 k
      obtain ⟨b2, codeB, q, b3, b4⟩ := (ihb h.2).1 (temps false a k).2
      exact ⟨b2, codeA ++ codeB, q, by simp only [temps, emit]; rw [a3, b3]; rfl, b4⟩
    exact ⟨hE, assign_of_emits _ (.inr rfl) hE⟩

end Expr
end SPVM
