import Verif.Model.Body
import Verif.Lemmas.Logic
/-!
# Method bodies: the operators of Model/Flow do what the operation codes of Model/Logic do
-/
namespace SPVM
namespace Expr
open Flow (Runs Point Stmt)

/-! ## The code of a condition on its own -/

/-- How a piece of code is left. -/
inductive XRes (φ : Type) where
  | out (skip : Nat) (m : Mem φ)
  | die (msg : String) (m : Mem φ)
  | ub

def runX {φ} (F : Fl φ) (O : Objs) : List (LInstr φ) → Nat → Mem φ → XRes φ
  | [], k, m => .out k m
  | _ :: is, skip + 1, m => runX F O is skip m
  | i :: is, 0, m =>
    match i with
    | .op i =>
      match step F m i with
      | .ok m => runX F O is 0 m
      | .die msg m => .die msg m
      | .ub => .ub
    | .truth o i =>
      match store m .int o (truthC F O m i) with
      | .ok m => runX F O is 0 m
      | .die msg m => .die msg m
      | .ub => .ub
    | .ifZero v n => if isZero (m .int v) then runX F O is n m else runX F O is 0 m
    | .goto n => runX F O is n m

def XRes.next {φ} (r : XRes φ) (k : Nat → Mem φ → XRes φ) : XRes φ :=
  match r with
  | .out n m => k n m
  | .die msg m => .die msg m
  | .ub => .ub

theorem runX_append {φ} (F : Fl φ) (O : Objs) (a b : List (LInstr φ)) (k : Nat) (m : Mem φ) :
    runX F O (a ++ b) k m = (runX F O a k m).next (runX F O b) := by
  induction a generalizing k m with
  | nil => rfl
  | cons i is ih =>
    cases k with
    | succ k => exact ih k m
    | zero =>
      cases i with
      | op i => simp only [List.cons_append, runX]; cases step F m i <;> first | exact ih _ _ | rfl
      | truth o i => simp only [List.cons_append, runX]; cases store m .int o (truthC F O m i) <;> first | exact ih _ _ | rfl
      | ifZero v n => simp only [List.cons_append, runX]; split <;> exact ih _ _
      | goto n => exact ih _ _

theorem runL_runX {φ} (F : Fl φ) (O : Objs) (a b : List (LInstr φ)) (k : Nat) (m : Mem φ) :
    runL F O (a ++ b) k m = match runX F O a k m with
      | .out n m => runL F O b n m
      | .die msg m => .die msg m
      | .ub => .ub := by
  induction a generalizing k m with
  | nil => rfl
  | cons i is ih =>
    cases k with
    | succ k => exact ih k m
    | zero =>
      cases i with
      | op i => simp only [List.cons_append, runX, runL]; cases step F m i <;> first | exact ih _ _ | rfl
      | truth o i => simp only [List.cons_append, runX, runL]; cases store m .int o (truthC F O m i) <;> first | exact ih _ _ | rfl
      | ifZero v n => simp only [List.cons_append, runX, runL]; split <;> exact ih _ _
      | goto n => exact ih _ _

theorem runX_skip {φ} (F : Fl φ) (O : Objs) (a : List (LInstr φ)) (n : Nat) (m : Mem φ) : runX F O a (a.length + n) m = .out n m := by
  induction a with
  | nil => simp [runX]
  | cons i is ih =>
    have : (i :: is).length + n = (is.length + n) + 1 := by simp only [List.length_cons]; omega
    rw [this]; exact ih

theorem runL_skipAll {φ} (F : Fl φ) (O : Objs) (n : Nat) (m : Mem φ) : runL F O (List.replicate n (.goto 0)) n m = .ok m := by
  induction n with
  | zero => rfl
  | succ n ih => exact ih

theorem out_of {φ} {F : Fl φ} {O : Objs} {X : List (LInstr φ)} {m m' : Mem φ} (h : ∀ rest, runL F O (X ++ rest) 0 m = runL F O rest 0 m') :
    runX F O X 0 m = .out 0 m' := by
  have h := h []
  rw [runL_runX] at h
  cases hx : runX F O X 0 m with
  | out n m1 =>
    rw [hx] at h
    cases n with
    | zero => injection h with h; rw [h]
    | succ n => cases h
  | die msg m1 => rw [hx] at h; cases h
  | ub => rw [hx] at h; cases h

theorem die_of {φ} {F : Fl φ} {O : Objs} {X : List (LInstr φ)} {m m' : Mem φ} {msg} (h : ∀ rest, runL F O (X ++ rest) 0 m = .die msg m') :
    runX F O X 0 m = .die msg m' := by
  have h := h []
  rw [runL_runX] at h
  cases hx : runX F O X 0 m with
  | out n m1 =>
    rw [hx] at h
    cases n <;> cases h
  | die msg1 m1 => rw [hx] at h; injection h with h1 h2; rw [h1, h2]
  | ub => rw [hx] at h; cases h

theorem ub_of {φ} {F : Fl φ} {O : Objs} {X : List (LInstr φ)} {m : Mem φ} (h : ∀ rest, runL F O (X ++ rest) 0 m = .ub) : runX F O X 0 m = .ub := by
  cases hx : runX F O X 0 m with
  | out n m1 =>
    have h := h (List.replicate n (.goto 0))
    rw [runL_runX, hx] at h
    have : runL F O (List.replicate n (.goto 0)) n m1 = .ub := h
    rw [runL_skipAll] at this
    cases this
  | die msg1 m1 => have h := h []; rw [runL_runX, hx] at h; cases h
  | ub => rfl

theorem runX_ops {φ} (F : Fl φ) (O : Objs) (a : List (Instr φ)) (m : Mem φ) : runX F O (a.map .op) 0 m = match run F a m with
      | .ok m => .out 0 m
      | .die msg m => .die msg m
      | .ub => .ub := by
  induction a generalizing m with
  | nil => rfl
  | cons i is ih =>
    simp only [List.map_cons, runX, run]
    cases step F m i with
    | ok m1 => exact ih m1
    | die msg m1 => rfl
    | ub => rfl

/-! ## Operators -/

/-- The operation codes `seg` have the numbers from `n` on. -/
def Fits {φ} (T : List (XInstr φ)) (n : Nat) (seg : List (XInstr φ)) : Prop := ∀ i x, seg[i]? = some x → T[n + i]? = some x

theorem Fits.append {φ} {T : List (XInstr φ)} {n : Nat} {a b : List (XInstr φ)} (h : Fits T n (a ++ b)) : Fits T n a ∧ Fits T (n + a.length) b := by
  constructor
  · intro i x hi
    apply h
    rw [List.getElem?_append_left]
    · exact hi
    · exact (List.getElem?_eq_some_iff.1 hi).1
  · intro i x hi
    rw [Nat.add_assoc]
    apply h
    rw [List.getElem?_append_right (by omega)]
    simpa using hi

theorem Fits.self {φ} (T : List (XInstr φ)) : Fits T 0 T := fun i x h => by simpa using h

/-- What an operator does to the memory, as far as it is defined. -/
def Does {φ} (I : Flow.Interp (BMem φ)) (S : Stmt) (m : Mem φ) : XRes φ → Prop
  | .out 0 m' => ∀ p ex, p.st.mem = some (m, ex) → ∃ q, Runs I (.stmt S) p .normal q ∧ q.st.mem = some (m', ex)
  | .out (_ + 1) _ => False
  | .die msg m' => ∀ p ex, p.st.mem = some (m, ex) → ∃ q, Runs I (.stmt S) p (.exc 1) q ∧ q.st.mem = some (m', { ex with exc := some msg })
  | .ub => ∀ p ex, p.st.mem = some (m, ex) → ∃ q, Runs I (.stmt S) p .normal q ∧ q.st.mem = none

/-- After an undefined operation an operator goes on without a memory. -/
theorem operator_none {φ} (F : Fl φ) (O : Objs) (K : Oracle φ) (T : List (XInstr φ)) (S : Stmt) (h : S.isOperator = true) :
    ∀ p, p.st.mem = none → ∃ q, Runs (interp F O K T) (.stmt S) p .normal q ∧ q.st.mem = none := by
  induction S with
  | skip => intro p hp; exact ⟨p, .skip p, hp⟩
  | act k => intro p hp; exact ⟨_, .act k p, by simp [interp, hp, execAt]⟩
  | call k => intro p hp; exact ⟨_, .callOk (by simp [interp, hp, execAt]), by simp [interp, hp, execAt]⟩
  | decl v => intro p hp; exact ⟨_, .decl v p, hp⟩
  | seq s t ihs iht =>
    intro p hp
    simp only [Stmt.isOperator, Bool.and_eq_true] at h
    obtain ⟨q, h1, h2⟩ := ihs h.1 p hp
    obtain ⟨u, h3, h4⟩ := iht h.2 q h2
    exact ⟨u, .seq h1 h3, h4⟩
  | choose c v t e ihc iht ihe =>
    intro p hp
    simp only [Stmt.isOperator, Bool.and_eq_true] at h
    obtain ⟨q, h1, h2⟩ := ihc h.1.1 p hp
    obtain ⟨u, h3, h4⟩ := ihe h.2 q h2
    exact ⟨u, .choose (.condFalse h1 (by simp [interp, h2]) h3), h4⟩
  | _ => simp [Stmt.isOperator] at h

theorem operator_det {τ} (I : Flow.Interp τ) (S : Stmt) (h : S.isOperator = true) :
    ∀ p r q r' q', Runs I (.stmt S) p r q → Runs I (.stmt S) p r' q' → r = r' ∧ q = q' := by
  induction S with
  | skip => intro p r q r' q' h1 h2; cases h1; cases h2; exact ⟨rfl, rfl⟩
  | act k => intro p r q r' q' h1 h2; cases h1; cases h2; exact ⟨rfl, rfl⟩
  | decl v => intro p r q r' q' h1 h2; cases h1; cases h2; exact ⟨rfl, rfl⟩
  | call k =>
    intro p r q r' q' h1 h2
    cases h1 <;> cases h2 <;> first | exact ⟨rfl, rfl⟩ | contradiction
  | seq s t ihs iht =>
    intro p r q r' q' h1 h2
    simp only [Stmt.isOperator, Bool.and_eq_true] at h
    cases h1 with
    | seq a b =>
      cases h2 with
      | seq a' b' =>
        obtain ⟨_, rfl⟩ := ihs h.1 _ _ _ _ _ a a'
        exact iht h.2 _ _ _ _ _ b b'
      | seqExit a' hr => exact absurd (ihs h.1 _ _ _ _ _ a a').1.symm hr
    | seqExit a hr =>
      cases h2 with
      | seq a' b' => exact absurd (ihs h.1 _ _ _ _ _ a a').1 hr
      | seqExit a' hr' => exact ihs h.1 _ _ _ _ _ a a'
  | choose c v t e ihc iht ihe =>
    intro p r q r' q' h1 h2
    simp only [Stmt.isOperator, Bool.and_eq_true] at h
    cases h1 with
    | choose h1 =>
      cases h2 with
      | choose h2 =>
        cases h1 with
        | condTrue a n b =>
          cases h2 with
          | condTrue a' n' b' => obtain ⟨_, rfl⟩ := ihc h.1.1 _ _ _ _ _ a a'; exact iht h.1.2 _ _ _ _ _ b b'
          | condFalse a' n' b' => obtain ⟨_, rfl⟩ := ihc h.1.1 _ _ _ _ _ a a'; exact absurd n' n
          | condExit a' hr => exact absurd (ihc h.1.1 _ _ _ _ _ a a').1.symm hr
        | condFalse a n b =>
          cases h2 with
          | condTrue a' n' b' => obtain ⟨_, rfl⟩ := ihc h.1.1 _ _ _ _ _ a a'; exact absurd n n'
          | condFalse a' n' b' => obtain ⟨_, rfl⟩ := ihc h.1.1 _ _ _ _ _ a a'; exact ihe h.2 _ _ _ _ _ b b'
          | condExit a' hr => exact absurd (ihc h.1.1 _ _ _ _ _ a a').1.symm hr
        | condExit a hr =>
          cases h2 with
          | condTrue a' n' b' => exact absurd (ihc h.1.1 _ _ _ _ _ a a').1 hr
          | condFalse a' n' b' => exact absurd (ihc h.1.1 _ _ _ _ _ a a').1 hr
          | condExit a' hr' => exact ihc h.1.1 _ _ _ _ _ a a'
  | _ => simp [Stmt.isOperator] at h

theorem Does.seq {φ} {F : Fl φ} {O : Objs} {K : Oracle φ} {T : List (XInstr φ)} {S S' : Stmt} {m : Mem φ} {r : XRes φ} {k : Nat → Mem φ → XRes φ} (h1 : Does (interp F O K T) S m r)
    (hS : S'.isOperator = true) (h2 : ∀ m', r = .out 0 m' → Does (interp F O K T) S' m' (k 0 m')) : Does (interp F O K T) (.seq S S') m (r.next k) := by
  cases r with
  | out n m' =>
    cases n with
    | succ n => exact h1.elim
    | zero =>
      have h2 := h2 m' rfl
      show Does _ _ _ (k 0 m')
      cases hk : k 0 m' with
      | out n m2 =>
        rw [hk] at h2
        cases n with
        | succ n => exact h2.elim
        | zero =>
          intro p ex hp
          obtain ⟨q, a, b⟩ := h1 p ex hp
          obtain ⟨u, c, d⟩ := h2 q ex b
          exact ⟨u, .seq a c, d⟩
      | die msg m2 =>
        rw [hk] at h2
        intro p ex hp
        obtain ⟨q, a, b⟩ := h1 p ex hp
        obtain ⟨u, c, d⟩ := h2 q ex b
        exact ⟨u, .seq a c, d⟩
      | ub =>
        rw [hk] at h2
        intro p ex hp
        obtain ⟨q, a, b⟩ := h1 p ex hp
        obtain ⟨u, c, d⟩ := h2 q ex b
        exact ⟨u, .seq a c, d⟩
  | die msg m' =>
    intro p ex hp
    obtain ⟨q, a, b⟩ := h1 p ex hp
    exact ⟨q, .seqExit a (by simp), b⟩
  | ub =>
    intro p ex hp
    obtain ⟨q, a, b⟩ := h1 p ex hp
    obtain ⟨u, c, d⟩ := operator_none F O K T S' hS q b
    exact ⟨u, .seq a c, d⟩

/-- A list of operation codes without jumps. -/
def runI {φ} (F : Fl φ) (O : Objs) : List (XInstr φ) → Mem φ → XRes φ
  | [], m => .out 0 m
  | i :: is, m =>
    match xstep F O m i with
    | .ok m => runI F O is m
    | .die msg m => .die msg m
    | .ub => .ub

theorem straight_operator {φ} (seg : List (XInstr φ)) : ∀ n, (straight seg n).isOperator = true := by
  induction seg with
  | nil => intro n; rfl
  | cons i is ih =>
    intro n
    simp only [straight, Stmt.isOperator, ih, Bool.and_true]
    split <;> rfl

theorem truthVal_i {φ} {F : Fl φ} {t : NT} {x v : Val φ} (h : truthVal F t x = .ok v) : ∃ n, v = .i n := by
  cases x with
  | i n =>
    simp only [truthVal] at h
    split at h
    · injection h with h; exact ⟨_, h.symm⟩
    · split at h
      · injection h with h; exact ⟨_, h.symm⟩
      · cases h
  | f x =>
    simp only [truthVal] at h
    split at h
    · injection h with h; exact ⟨_, h.symm⟩
    · cases h

theorem truthC_cases {φ} (F : Fl φ) (O : Objs) (m : Mem φ) (p : CVar) : (∃ n, truthC F O m p = .ok (.i n)) ∨ truthC F O m p = .ub := by
  cases p with
  | num p =>
    show (∃ n, truthVal F p.ty (m p.ty p.id) = .ok (.i n)) ∨ truthVal F p.ty (m p.ty p.id) = .ub
    cases h : truthVal F p.ty (m p.ty p.id) with
    | ok v => obtain ⟨n, rfl⟩ := truthVal_i h; exact .inl ⟨n, rfl⟩
    | ub => exact .inr rfl
    | die msg =>
      exfalso
      cases hx : m p.ty p.id with
      | i n => rw [hx] at h; simp only [truthVal] at h; split at h; · cases h
               split at h <;> cases h
      | f n => rw [hx] at h; simp only [truthVal] at h; split at h <;> cases h
  | obj t n =>
    show (∃ j, truthObj t (O n) = .ok (.i j)) ∨ truthObj t (O n) = .ub
    cases t <;> cases O n <;> first | exact .inl ⟨_, rfl⟩ | exact .inr rfl

theorem store_die {φ} {m : Mem φ} {t v} {o : Out (Val φ)} {msg m'} (h : store m t v o = .die msg m') : o = .die msg := by
  cases o with
  | ok x => cases h
  | ub => cases h
  | die msg1 => injection h with h1 h2; rw [h1]

/-- Only the operation codes with a jump behind them throw an exception. -/
theorem xstep_die {φ} {F : Fl φ} {O : Objs} {m : Mem φ} {i : XInstr φ} {msg m'} (h : xstep F O m i = .die msg m') : i.mayThrow = true := by
  cases i with
  | nothing => cases h
  | zero p => cases h
  | give p => cases h
  | setStack i p => cases h
  | getStack p i => cases h
  | invoke f n => cases h
  | truth o i =>
    have h := store_die h
    rcases truthC_cases F O m i with ⟨n, hn⟩ | hn <;> rw [hn] at h <;> cases h
  | op i =>
    cases i with
    | move t o i => cases h
    | const t o c => cases h
    | conv s t o i =>
      have h := store_die h
      exfalso
      cases hx : m s i with
      | i n => rw [hx] at h; simp only [convVal] at h; split at h <;> cases h
      | f x =>
        rw [hx] at h; simp only [convVal] at h
        split at h
        · split at h
          · simp only [signed] at h; split at h <;> cases h
          · cases h
        · cases h
    | negate t o i =>
      have h := store_die h
      exfalso
      cases hx : m t i with
      | i n => rw [hx] at h; simp only [negVal, signed] at h; split at h <;> cases h
      | f x => rw [hx] at h; cases h
    | bitNot t o i =>
      have h := store_die h
      exfalso
      cases hx : m t i with
      | i n => rw [hx] at h; cases h
      | f x => rw [hx] at h; cases h
    | bin op t o i1 i2 =>
      have h := store_die h
      cases hx : m t i1 with
      | f x =>
        exfalso
        rw [hx] at h
        cases hy : m (in2Ty op t) i2 with
        | i n => rw [hy] at h; cases h
        | f y => rw [hy] at h; cases op <;> cases h
      | i n =>
        rw [hx] at h
        cases hy : m (in2Ty op t) i2 with
        | f y => rw [hy] at h; cases h
        | i k =>
          rw [hy] at h
          simp only [binVal] at h
          cases ht : t.isInteger with
          | false => rw [ht] at h; cases h
          | true =>
            rw [ht, if_pos rfl] at h
            cases op <;> first
              | exact ht
              | (exfalso; simp only [intOp, signed, VM.leftShift, VM.rightArithShift, VM.rightLogicShift, ofBool] at h; split at h <;> cases h)
              | (exfalso; simp only [intOp, signed, VM.leftShift, VM.rightArithShift, VM.rightLogicShift, ofBool] at h; cases h)
              | (exfalso; simp only [intOp, VM.leftShift, VM.rightArithShift, VM.rightLogicShift] at h; split at h <;> simp [ofInt, ofBits] at h)

/-- The operation code works on variables only. -/
def Quiet {φ} (i : XInstr φ) : Prop := ∀ (F : Fl φ) O K m d, xexec F O K m d i = match xstep F O m i with
  | .ok m' => (some (m', d), 0)
  | .die msg m' => (some (m', { d with exc := some msg }), 1)
  | .ub => (none, 0)

theorem quiet_ops {φ} (x : List (Instr φ)) : ∀ i ∈ x.map XInstr.op, Quiet i := by
  intro i hi
  obtain ⟨j, _, rfl⟩ := List.mem_map.1 hi
  intro F O K m d; rfl

/-- How a list of operation codes without jumps is left. -/
inductive SRes (φ : Type) where
  | out (m : Mem φ) (d : Side φ)
  | exc (e : Nat) (m : Mem φ) (d : Side φ)
  | ub

def SRes.next {φ} (r : SRes φ) (k : Mem φ → Side φ → SRes φ) : SRes φ :=
  match r with
  | .out m d => k m d
  | .exc e m d => .exc e m d
  | .ub => .ub

def oneS {φ} : BMem φ × Nat → SRes φ
  | (none, _) => .ub
  | (some (m, d), 0) => .out m d
  | (some (m, d), e + 1) => .exc (e + 1) m d

def runS {φ} (F : Fl φ) (O : Objs) (K : Oracle φ) : List (XInstr φ) → Mem φ → Side φ → SRes φ
  | [], m, d => .out m d
  | i :: is, m, d => (oneS (xexec F O K m d i)).next (runS F O K is)

theorem runS_append {φ} (F : Fl φ) (O : Objs) (K : Oracle φ) (a b : List (XInstr φ)) : ∀ m d,
    runS F O K (a ++ b) m d = (runS F O K a m d).next (runS F O K b) := by
  induction a with
  | nil => intro m d; rfl
  | cons i is ih =>
    intro m d
    simp only [List.cons_append, runS]
    cases oneS (xexec F O K m d i) with
    | out m1 d1 => exact ih m1 d1
    | exc e m1 d1 => rfl
    | ub => rfl

theorem runS_ops {φ} (F : Fl φ) (O : Objs) (K : Oracle φ) (a : List (Instr φ)) : ∀ m d, runS F O K (a.map .op) m d = match run F a m with
      | .ok m' => .out m' d
      | .die msg m' => .exc 1 m' { d with exc := some msg }
      | .ub => .ub := by
  induction a with
  | nil => intro m d; rfl
  | cons i is ih =>
    intro m d
    simp only [List.map_cons, runS, run, xexec, xstep]
    cases step F m i with
    | ok m1 => exact ih m1 d
    | die msg m1 => rfl
    | ub => rfl

/-- What an operator does, as far as it is defined. -/
def Does2 {φ} (I : Flow.Interp (BMem φ)) (S : Stmt) (m : Mem φ) (d : Side φ) : SRes φ → Prop
  | .out m' d' => ∀ p, p.st.mem = some (m, d) → ∃ q, Runs I (.stmt S) p .normal q ∧ q.st.mem = some (m', d')
  | .exc e m' d' => ∀ p, p.st.mem = some (m, d) → ∃ q, Runs I (.stmt S) p (.exc e) q ∧ q.st.mem = some (m', d')
  | .ub => ∀ p, p.st.mem = some (m, d) → ∃ q, Runs I (.stmt S) p .normal q ∧ q.st.mem = none

theorem Does2.seq {φ} {F : Fl φ} {O : Objs} {K : Oracle φ} {T : List (XInstr φ)} {S S' : Stmt} {m : Mem φ} {d : Side φ} {r : SRes φ}
    {k : Mem φ → Side φ → SRes φ} (h1 : Does2 (interp F O K T) S m d r) (hS : S'.isOperator = true)
    (h2 : ∀ m' d', r = .out m' d' → Does2 (interp F O K T) S' m' d' (k m' d')) : Does2 (interp F O K T) (.seq S S') m d (r.next k) := by
  cases r with
  | out m' d' =>
    have h2 := h2 m' d' rfl
    show Does2 _ _ _ _ (k m' d')
    cases hk : k m' d' <;>
      (rw [hk] at h2; intro p hp; obtain ⟨q, a, b⟩ := h1 p hp; obtain ⟨u, c, e⟩ := h2 q b; exact ⟨u, .seq a c, e⟩)
  | exc e m' d' =>
    intro p hp
    obtain ⟨q, a, b⟩ := h1 p hp
    exact ⟨q, .seqExit a (by simp), b⟩
  | ub =>
    intro p hp
    obtain ⟨q, a, b⟩ := h1 p hp
    obtain ⟨u, c, e⟩ := operator_none F O K T S' hS q b
    exact ⟨u, .seq a c, e⟩

theorem xexec_err {φ} {F : Fl φ} {O : Objs} {K : Oracle φ} {m : Mem φ} {d : Side φ} {i : XInstr φ} (h : (xexec F O K m d i).2 ≠ 0) : i.mayThrow = true := by
  cases i with
  | give p => exact absurd rfl h
  | setStack i p => exact absurd rfl h
  | getStack p i =>
    simp only [xexec] at h
    split at h
    · split at h <;> exact absurd rfl h
    · exact absurd rfl h
  | invoke f n => rfl
  | op j => cases hx : xstep F O m (.op j) with
    | ok m1 => simp only [xexec, hx] at h; exact absurd rfl h
    | ub => simp only [xexec, hx] at h; exact absurd rfl h
    | die msg m1 => exact xstep_die hx
  | truth o j => cases hx : xstep F O m (.truth o j) with
    | ok m1 => simp only [xexec, hx] at h; exact absurd rfl h
    | ub => simp only [xexec, hx] at h; exact absurd rfl h
    | die msg m1 => exact xstep_die hx
  | zero p => simp only [xexec, xstep] at h; exact absurd rfl h
  | nothing => simp only [xexec, xstep] at h; exact absurd rfl h

theorem straight_runs {φ} (F : Fl φ) (O : Objs) (K : Oracle φ) (T : List (XInstr φ)) (seg : List (XInstr φ)) : ∀ (n : Nat) (m : Mem φ) (d : Side φ), Fits T n seg →
    Does2 (interp F O K T) (straight seg n) m d (runS F O K seg m d) := by
  induction seg with
  | nil => intro n m d _ p hp; exact ⟨p, .skip p, hp⟩
  | cons i is ih =>
    intro n m d hf
    have h0 : T[n]? = some i := by simpa using hf 0 i rfl
    have hf' : Fits T (n + 1) is := fun j x hj => by have := hf (j + 1) x (by simpa using hj); rwa [show n + (j + 1) = n + 1 + j by omega] at this
    have key : Does2 (interp F O K T) (if i.mayThrow then .call n else .act n) m d (oneS (xexec F O K m d i)) := by
      have hx : ∀ p : Point (BMem φ), p.st.mem = some (m, d) → execAt F O K T n p.st.mem = xexec F O K m d i := by
        intro p hp; simp only [hp, execAt, h0]
      cases he : xexec F O K m d i with
      | mk b e =>
        cases e with
        | zero =>
          cases b with
          | none =>
            intro p hp
            have hx := hx p hp
            rw [he] at hx
            cases i.mayThrow with
            | true => exact ⟨_, .callOk (by simp [interp, hx]), by simp [interp, hx]⟩
            | false => exact ⟨_, .act n p, by simp [interp, hx]⟩
          | some b =>
            intro p hp
            have hx := hx p hp
            rw [he] at hx
            cases i.mayThrow with
            | true => exact ⟨_, .callOk (by simp [interp, hx]), by simp [interp, hx]⟩
            | false => exact ⟨_, .act n p, by simp [interp, hx]⟩
        | succ e =>
          have hm := xexec_err (F := F) (O := O) (K := K) (m := m) (d := d) (i := i) (by rw [he]; simp)
          cases b with
          | none =>
            exfalso
            cases i with
            | invoke f n =>
              simp only [xexec] at he
              split at he <;> simp at he
            | op j =>
              simp only [xexec] at he
              split at he <;> simp at he
            | _ => cases hm
          | some b =>
            rw [hm, if_pos rfl]
            intro p hp
            have hx := hx p hp
            rw [he] at hx
            have r := Runs.callThrow (I := interp F O K T) (k := n) (p := p) (by simp [interp, hx])
            have e' : ((interp F O K T).call n p.st).2 = e + 1 := by simp [interp, hx]
            rw [e'] at r
            exact ⟨_, r, by simp [interp, hx]⟩
    have g := Does2.seq (k := runS F O K is) key (straight_operator is (n + 1)) (fun m' d' _ => ih (n + 1) m' d' hf')
    simp only [runS, straight]
    exact g

theorem runS_quiet {φ} (F : Fl φ) (O : Objs) (K : Oracle φ) (seg : List (XInstr φ)) (hq : ∀ i ∈ seg, Quiet i) : ∀ m d, runS F O K seg m d = match runI F O seg m with
      | .out _ m' => .out m' d
      | .die msg m' => .exc 1 m' { d with exc := some msg }
      | .ub => .ub := by
  induction seg with
  | nil => intro m d; rfl
  | cons i is ih =>
    intro m d
    have ih := ih (fun j hj => hq j (List.mem_cons_of_mem _ hj))
    simp only [runS, runI, hq i (List.mem_cons_self ..) F O K m d]
    cases xstep F O m i with
    | ok m1 => exact ih m1 d
    | die msg m1 => rfl
    | ub => rfl

theorem runI_zero {φ} (F : Fl φ) (O : Objs) (seg : List (XInstr φ)) : ∀ m n m', runI F O seg m = .out n m' → n = 0 := by
  induction seg with
  | nil => intro m n m' h; injection h with h; exact h.symm
  | cons i is ih =>
    intro m n m' h
    simp only [runI] at h
    split at h
    · exact ih _ _ _ h
    · cases h
    · cases h

theorem straight_does {φ} (F : Fl φ) (O : Objs) (K : Oracle φ) (T : List (XInstr φ)) (seg : List (XInstr φ)) (hq : ∀ i ∈ seg, Quiet i) (n : Nat) (m : Mem φ) (hf : Fits T n seg) :
    Does (interp F O K T) (straight seg n) m (runI F O seg m) := by
  have g := fun d => straight_runs F O K T seg n m d hf
  simp only [runS_quiet F O K seg hq] at g
  cases h : runI F O seg m with
  | out k m' =>
    cases k with
    | succ k => cases runI_zero F O seg _ _ _ h
    | zero => intro p d hp; have g := g d; rw [h] at g; exact g p hp
  | die msg m' => intro p d hp; have g := g d; rw [h] at g; exact g p hp
  | ub => intro p d hp; have g := g d; rw [h] at g; exact g p hp

theorem runI_ops {φ} (F : Fl φ) (O : Objs) (a : List (Instr φ)) (m : Mem φ) : runI F O (a.map .op) m = runX F O (a.map .op) 0 m := by
  induction a generalizing m with
  | nil => rfl
  | cons i is ih =>
    simp only [List.map_cons, runI, runX, xstep]
    cases step F m i with
    | ok m1 => exact ih m1
    | die msg m1 => rfl
    | ub => rfl

end Expr
end SPVM
