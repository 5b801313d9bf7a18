import Verif.Lemmas.ArgsRun
import Verif.Lemmas.ExprVal
import Verif.Props.Types
/-!
# What the compiler accepts, the default values and the check at run time
-/
namespace SPVM
namespace Args
open Types (World Ty Cat cat isNumeric isMulnum isObject isUndef isVoid assign hasCat_iff facts TyFacts isObj_iff objB)
open Spec.Types (HasCat IsObj WfTy Wf Assignable Converts)
open Vars (VarKind Decl)
open Expr (NT Val Fl)
open Spec.Args
variable {φ : Type}

/-! ## Defaults -/

theorem constTo_ok {F : Fl φ} {E : Env} {t : Ty} {s nt : NT} {x : Val φ} {k : VarKind} (h0 : t.dim = 0) (hr : t.ref = false)
    (hn : NumTy t.bt nt k) (hl : Expr.Literal s x) (h : s.rank ≤ nt.rank ∨ Expr.Narrows nt (some (s, x))) :
    ∃ y, constTo F s nt x = .ok y ∧ Default E F t (.const s x) (.num y) := by
  unfold constTo
  cases x with
  | i n =>
    simp only [Expr.Literal] at hl
    have hs : s.IsInt := by rcases hl.1 with h | h | h <;> subst h <;> simp [NT.IsInt, NT.rank]
    by_cases hi : nt.IsInt
    · have hin : Expr.InRange nt n := by
        rcases h with h | h
        · have h2 := hl.2
          revert h2 h
          simp only [Expr.InRange]
          rcases hl.1 with h | h | h <;> subst h <;> cases nt <;> simp [NT.rank, NT.bits] <;> omega
        · exact h.2
      refine ⟨.i n, ?_, .int h0 hr hn hi hs hin⟩
      by_cases he : s = nt
      · rw [if_pos he]
      · rw [if_neg he, Expr.convVal_eq F he]
        simp only [Expr.conv]
        rw [if_pos hi, Expr.wrap_id hin]; rfl
    · have he : s ≠ nt := fun hh => hi (hh ▸ hs)
      refine ⟨.f (F.ofInt nt n), ?_, .intFloat h0 hr hn hi hs⟩
      rw [if_neg he, Expr.convVal_eq F he]
      simp only [Expr.conv]
      rw [if_neg hi]; rfl
  | f y =>
    simp only [Expr.Literal] at hl
    have hs : ¬ s.IsInt := by rcases hl with h | h <;> subst h <;> simp [NT.IsInt, NT.rank]
    have hi : ¬ nt.IsInt := by
      rcases h with h | h
      · simp only [NT.IsInt] at *; omega
      · rw [h.2]; simp [NT.IsInt, NT.rank]
    by_cases he : s = nt
    · subst he
      exact ⟨.f y, by rw [if_pos rfl], .float h0 hr hn hi⟩
    · refine ⟨.f (F.cast s nt y), ?_, .floatFloat h0 hr hn hi hs he⟩
      rw [if_neg he, Expr.convVal_eq F he]
      simp only [Expr.conv]
      rw [if_neg hi, if_neg he]; rfl

theorem default_rank {F : Fl φ} {E : Env} {t : Ty} {s nt : NT} {x : Val φ} {k : VarKind} {v : V φ} (hn : NumTy t.bt nt k)
    (hl : Expr.Literal s x) (h : Default E F t (.const s x) v) : s.rank ≤ nt.rank ∨ Expr.Narrows nt (some (s, x)) := by
  have same : ∀ {nt' k'}, NumTy t.bt nt' k' → nt' = nt := fun h' => by rw [(numTy_eq h').1, (numTy_eq hn).1]
  cases h with
  | int h0 hr hn' hi hs hin => obtain rfl := same hn'; exact .inr ⟨hs, hin⟩
  | intFloat h0 hr hn' hi hs => obtain rfl := same hn'; left; simp only [NT.IsInt] at *; omega
  | float h0 hr hn' hi => obtain rfl := same hn'; exact .inl (Nat.le_refl _)
  | floatFloat h0 hr hn' hi hs he =>
    obtain rfl := same hn'
    rename_i nt' _ _
    simp only [Expr.Literal] at hl
    rcases hl with h | h <;> subst h <;> cases nt' <;> simp [NT.IsInt, NT.rank, Expr.Narrows] at *

/-- A default is accepted exactly when the specification gives it a value, and that value is stored. -/
theorem dfltCell_spec {E : Env} (hE : EnvOk E) (F : Fl φ) {t : Ty} (ht : VarTy E.w t) (d : Dflt φ)
    (hl : ∀ s x, d = .const s x → Expr.Literal s x) :
    (∃ x, dfltCell E F t d = .ok (varKind E t, x) ∧ Default E F t d x ∧ width E t = 1) ∨
    ((∃ msg, dfltCell E F t d = .die msg) ∧ ∀ v, ¬ Default E F t d v) := by
  have notNum : ∀ {s x v}, isNumeric t = false → ¬ Default E F t (.const s x) v := by
    intro s x v h hd
    have key : ∀ {nt k}, t.dim = 0 → t.ref = false → NumTy t.bt nt k → False := by
      intro nt k a b c
      have := numTy_eq c
      simp [isNumeric, a, b, Types.btNumeric] at h
      omega
    cases hd with
    | int a b c => exact key a b c
    | intFloat a b c => exact key a b c
    | float a b c => exact key a b c
    | floatFloat a b c => exact key a b c
  cases sorted hE ht with
  | num h1 h2 h3 h4 h0 h5 h6 h7 h8 =>
    have hw : width E t = 1 := by simp [width, h6]
    have hk : varKind E t = numKind t.bt := by simp [varKind, h1, h4, h5, h6]
    cases d with
    | const s x =>
      have hlit := hl s x rfl
      by_cases h : s.rank ≤ (numType t.bt).rank ∨ Expr.Narrows (numType t.bt) (some (s, x))
      · obtain ⟨y, e, hy⟩ := constTo_ok (F := F) (E := E) h3 h4 h2 hlit h
        refine .inl ⟨.num y, ?_, hy, hw⟩
        have hc := Expr.checkAssign_ok (numType t.bt) (.const s x) rfl hlit h
        simp only [dfltCell, h1, if_true, hc, e, Out.ok_bind, hk]
      · refine .inr ⟨⟨msgDefault, ?_⟩, fun v hv => h (default_rank h2 hlit hv)⟩
        have hc := Expr.checkAssign_die (numType t.bt) (.const s x) rfl hlit h
        simp only [dfltCell, h1, if_true, hc]
    | undef => exact .inr ⟨⟨msgConst, by simp [dfltCell, h1]⟩, fun v hv => by cases hv with | undef a => exact h7 a⟩
    | other => exact .inr ⟨⟨msgConst, by simp [dfltCell, h1]⟩, fun v hv => by cases hv⟩
  | obj h1 h2 h3 h4 h5 =>
    have hw : width E t = 1 := by simp [width, h5]
    have hk : varKind E t = .object := by simp [varKind, h1]
    cases d with
    | const s x => exact .inr ⟨⟨msgUndef, by simp [dfltCell, h1, h4]⟩, fun v => notNum h4⟩
    | undef => exact .inl ⟨.obj none, by simp [dfltCell, h1, h4, hk], .undef h2, hw⟩
    | other => exact .inr ⟨⟨msgUndef, by simp [dfltCell, h1, h4]⟩, fun v hv => by cases hv⟩
  | ref h1 h2 h3 h4 h5 h6 h7 =>
    cases d with
    | const s x => exact .inr ⟨⟨msgOptional, by simp [dfltCell, h4, h6]⟩, fun v => notNum h6⟩
    | undef => exact .inr ⟨⟨msgOptional, by simp [dfltCell, h4, h6]⟩, fun v hv => by cases hv with | undef a => exact h7 a⟩
    | other => exact .inr ⟨⟨msgOptional, by simp [dfltCell, h4, h6]⟩, fun v hv => by cases hv⟩
  | mul h1 h2 h3 h4 h5 h6 h7 h8 =>
    cases d with
    | const s x => exact .inr ⟨⟨msgOptional, by simp [dfltCell, h6, h7]⟩, fun v => notNum h7⟩
    | undef => exact .inr ⟨⟨msgOptional, by simp [dfltCell, h6, h7]⟩, fun v hv => by cases hv with | undef a => exact h8 a⟩
    | other => exact .inr ⟨⟨msgOptional, by simp [dfltCell, h6, h7]⟩, fun v hv => by cases hv⟩

/-! ## Parameter lists -/

/-- The entries that the run time has for the parameters. -/
def RArgs (E : Env) (F : Fl φ) : List (Param φ) → Nat → List (Call.Arg Ty (Cell φ)) → Prop
  | [], _, ra => ra = []
  | p :: ps, idx, ra => ∃ a r, ra = a :: r ∧ a.ty = p.ty ∧ a.isObject = isObject E.w p.ty ∧ a.stackIndex = idx ∧
      (∀ d, p.dflt = some d → dfltCell E F p.ty d = .ok a.default) ∧ RArgs E F ps (idx + width E p.ty) r

theorem checkParams_ok {E : Env} {F : Fl φ} : ∀ {ps : List (Param φ)} {found : Bool} {idx : Nat} {r : List (Call.Arg Ty (Cell φ)) × Nat},
    checkParams E F ps found idx = .ok r →
    RArgs E F ps idx r.1 ∧ r.2 = idx + total E ps ∧ (found = true → ∀ p ∈ ps, p.dflt ≠ none) ∧
    (∀ (i j : Nat) (p q : Param φ), i < j → ps[i]? = some p → ps[j]? = some q → p.dflt ≠ none → q.dflt ≠ none) := by
  intro ps
  induction ps with
  | nil =>
    intro found idx r h
    simp only [checkParams] at h
    cases h
    exact ⟨rfl, rfl, by simp, by intro i j p q _ h; simp at h⟩
  | cons p ps ih =>
    intro found idx r h
    simp only [checkParams] at h
    cases hd : p.dflt with
    | some d =>
      simp only [hd] at h
      cases hc : dfltCell E F p.ty d with
      | ok c =>
        rw [hc] at h
        simp only [Out.ok_bind] at h
        cases hr : checkParams E F ps true (idx + width E p.ty) with
        | ok r' =>
          rw [hr] at h
          simp only [Out.ok_bind] at h
          cases h
          obtain ⟨a1, a2, a3, a4⟩ := ih hr
          refine ⟨⟨_, _, rfl, rfl, rfl, rfl, ?_, a1⟩, by simp only [total]; omega, ?_, ?_⟩
          · intro d' hd'; rw [hd] at hd'; cases hd'; exact hc
          · intro _ q hq
            rcases List.mem_cons.1 hq with rfl | hq
            · rw [hd]; simp
            · exact a3 rfl q hq
          · intro i j p' q hij h1 h2 h3
            cases j with
            | zero => omega
            | succ j =>
              simp only [List.getElem?_cons_succ] at h2
              exact a3 rfl q (List.mem_of_getElem? h2)
        | die m => rw [hr] at h; cases h
        | ub => rw [hr] at h; cases h
      | die m => rw [hc] at h; cases h
      | ub => rw [hc] at h; cases h
    | none =>
      simp only [hd] at h
      cases found with
      | true => simp at h
      | false =>
        simp only [Bool.false_eq_true, if_false] at h
        cases hr : checkParams E F ps false (idx + width E p.ty) with
        | ok r' =>
          rw [hr] at h
          simp only [Out.ok_bind] at h
          cases h
          obtain ⟨a1, a2, a3, a4⟩ := ih hr
          refine ⟨⟨_, _, rfl, rfl, rfl, rfl, ?_, a1⟩, by simp only [total]; omega, by simp, ?_⟩
          · intro d' hd'; rw [hd] at hd'; cases hd'
          · intro i j p' q hij h1 h2 h3
            cases j with
            | zero => omega
            | succ j =>
              cases i with
              | zero => simp only [List.getElem?_cons_zero, Option.some.injEq] at h1; subst h1; exact absurd hd h3
              | succ i =>
                simp only [List.getElem?_cons_succ] at h1 h2
                exact a4 i j p' q (by omega) h1 h2 h3
        | die m => rw [hr] at h; cases h
        | ub => rw [hr] at h; cases h

theorem checkMeth_ok {E : Env} {F : Fl φ} {ps : List (Param φ)} {ra : List (Call.Arg Ty (Cell φ))} (h : checkMeth E F ps = .ok ra) :
    RArgs E F ps 0 ra ∧ total E ps ≤ 255 ∧
    (∀ (i j : Nat) (p q : Param φ), i < j → ps[i]? = some p → ps[j]? = some q → p.dflt ≠ none → q.dflt ≠ none) := by
  unfold checkMeth at h
  cases hr : checkParams E F ps false 0 with
  | ok r =>
    rw [hr] at h
    simp only [Out.ok_bind] at h
    obtain ⟨a1, a2, -, a4⟩ := checkParams_ok hr
    by_cases hw : r.2 ≤ 255
    · rw [if_pos hw] at h; cases h; exact ⟨a1, by omega, a4⟩
    · rw [if_neg hw] at h; cases h
  | die m => rw [hr] at h; cases h
  | ub => rw [hr] at h; cases h

theorem checkParams_total {E : Env} (hE : EnvOk E) (F : Fl φ) : ∀ (ps : List (Param φ)) (found : Bool) (idx : Nat),
    (∀ p ∈ ps, VarTy E.w p.ty) → (∀ p ∈ ps, ConstOk p) →
    (∃ r, checkParams E F ps found idx = .ok r) ∨
    ((∃ msg, checkParams E F ps found idx = .die msg) ∧
      ¬ ((∀ p ∈ ps, ∀ d, p.dflt = some d → ∃ v, Default E F p.ty d v) ∧ (found = true → ∀ p ∈ ps, p.dflt ≠ none) ∧
        (∀ (i j : Nat) (p q : Param φ), i < j → ps[i]? = some p → ps[j]? = some q → p.dflt ≠ none → q.dflt ≠ none))) := by
  intro ps
  induction ps with
  | nil => intro found idx _ _; exact .inl ⟨_, rfl⟩
  | cons p ps ih =>
    intro found idx hv hc
    simp only [checkParams]
    have hv' : ∀ q ∈ ps, VarTy E.w q.ty := fun q hq => hv q (List.mem_cons_of_mem _ hq)
    have hc' : ∀ q ∈ ps, ConstOk q := fun q hq => hc q (List.mem_cons_of_mem _ hq)
    cases hd : p.dflt with
    | some d =>
      simp only
      rcases dfltCell_spec hE F (hv p (by simp)) d (fun s x h => hc p (by simp) s x (by rw [hd, h])) with ⟨x, e, -, -⟩ | ⟨⟨msg, e⟩, hno⟩
      · rw [e]
        simp only [Out.ok_bind]
        rcases ih true (idx + width E p.ty) hv' hc' with ⟨r, e⟩ | ⟨⟨msg, e⟩, hno⟩
        · rw [e]; exact .inl ⟨_, rfl⟩
        · rw [e]
          refine .inr ⟨⟨msg, rfl⟩, fun ⟨g1, g2, g3⟩ => hno ⟨fun q hq => g1 q (List.mem_cons_of_mem _ hq), fun _ q hq => ?_,
            fun i j p' q hij h1 h2 => g3 (i + 1) (j + 1) p' q (by omega) (by simpa using h1) (by simpa using h2)⟩⟩
          obtain ⟨j, hj⟩ := List.mem_iff_getElem?.1 hq
          exact g3 0 (j + 1) p q (by omega) rfl (by simpa using hj) (by rw [hd]; simp)
      · rw [e]
        refine .inr ⟨⟨msg, rfl⟩, fun ⟨g1, _, _⟩ => ?_⟩
        obtain ⟨v, hv⟩ := g1 p (by simp) d hd
        exact hno v hv
    | none =>
      simp only
      cases found with
      | true => exact .inr ⟨⟨msgAfter, by simp⟩, fun ⟨_, g2, _⟩ => g2 rfl p (by simp) hd⟩
      | false =>
        simp only [Bool.false_eq_true, if_false]
        rcases ih false (idx + width E p.ty) hv' hc' with ⟨r, e⟩ | ⟨⟨msg, e⟩, hno⟩
        · rw [e]; exact .inl ⟨_, rfl⟩
        · rw [e]
          refine .inr ⟨⟨msg, rfl⟩, fun ⟨g1, g2, g3⟩ => hno ⟨fun q hq => g1 q (List.mem_cons_of_mem _ hq), by simp,
            fun i j p' q hij h1 h2 => g3 (i + 1) (j + 1) p' q (by omega) (by simpa using h1) (by simpa using h2)⟩⟩

theorem totalWidth_eq {E : Env} (hE : EnvOk E) {ps : List (Param φ)} (hv : ∀ p ∈ ps, VarTy E.w p.ty) : TotalWidth E ps (total E ps) := by
  induction ps with
  | nil => exact .nil
  | cons p ps ih => exact .cons (shape_of hE (hv p (by simp))) (ih fun q hq => hv q (List.mem_cons_of_mem _ hq))

theorem totalWidth_unique {E : Env} (hE : EnvOk E) {ps : List (Param φ)} {n : Nat} (h : TotalWidth E ps n) (hv : ∀ p ∈ ps, VarTy E.w p.ty) : n = total E ps := by
  induction h with
  | nil => rfl
  | cons h1 h2 ih =>
    have := (shape_eq hE (hv _ (by simp)) h1).2
    have := ih fun q hq => hv q (List.mem_cons_of_mem _ hq)
    simp only [total]; omega

theorem required_spec (ps : List (Param φ)) : IsRequired ps (required ps) := by
  induction ps with
  | nil => exact ⟨by simp [required], by intro j p h; simp [required] at h, by intro p h; simp at h⟩
  | cons p ps ih =>
    obtain ⟨a1, a2, a3⟩ := ih
    simp only [required]
    cases hd : p.dflt with
    | some d =>
      simp only [Option.isSome_some, if_true]
      refine ⟨by omega, by intro j p h; omega, ?_⟩
      intro q hq
      simp only [List.getElem?_cons_zero, Option.some.injEq] at hq
      subst hq; rw [hd]; simp
    | none =>
      simp only [Option.isSome_none, Bool.false_eq_true, if_false]
      refine ⟨by simp; omega, ?_, ?_⟩
      · intro j q hj hq
        cases j with
        | zero => simp only [List.getElem?_cons_zero, Option.some.injEq] at hq; subst hq; exact hd
        | succ j => exact a2 j q (by omega) (by simpa using hq)
      · intro q hq; exact a3 q (by simpa using hq)

theorem required_unique {ps : List (Param φ)} {a b : Nat} (ha : IsRequired ps a) (hb : IsRequired ps b) : a = b := by
  obtain ⟨a1, a2, a3⟩ := ha
  obtain ⟨b1, b2, b3⟩ := hb
  rcases Nat.lt_trichotomy a b with h | h | h
  · have hl : a < ps.length := by omega
    exact absurd (b2 a ps[a] h (List.getElem?_eq_getElem hl)) (a3 _ (List.getElem?_eq_getElem hl))
  · exact h
  · have hl : b < ps.length := by omega
    exact absurd (a2 b ps[b] h (List.getElem?_eq_getElem hl)) (b3 _ (List.getElem?_eq_getElem hl))

/-! ## The arguments of a call -/

theorem isVoid_iff {w : World} (hw : Wf w) {t : Ty} (ht : WfTy w t) : isVoid t = true ↔ HasCat w t.bt .void := by
  have f := facts hw ht
  rw [hasCat_iff (by simp)]
  have h1 := f.ref
  have h2 := f.dim
  simp only [isVoid, f.voi]
  cases hr : t.ref
  · simp
    intro h
    have : ¬ 0 < t.dim := fun h0 => (h2 h0).2 h
    omega
  · rw [hr] at h1; simp; grind

theorem assign_yes_narrow {w : World} {n : Nat} {im : Bool} {d s : Ty} :
    assign w n true im d s = .ok .yes ↔ assign w n false im d s = .ok .yes := by
  unfold assign Types.assignWith
  by_cases h1 : isNumeric d = true
  · rw [if_pos h1, if_pos h1]
    by_cases h2 : isNumeric s = true
    · rw [if_pos h2, if_pos h2]
      split
      · rfl
      · split
        · rfl
        · simp
    · rw [if_neg h2, if_neg h2]
  · rw [if_neg h1, if_neg h1]

theorem assign_yes_iff {w : World} {n : Nat} {narrow im : Bool} {d s : Ty} :
    assign w n narrow im d s = .ok .yes ↔ assign w n false im d s = .ok .yes := by
  cases narrow with
  | true => exact assign_yes_narrow
  | false => rfl

theorem not_both {w : World} (hw : Wf w) {d s : Ty} (hd : WfTy w d) (hs : WfTy w s) {narrow : Bool} (h : Converts w narrow d s) :
    ¬ Assignable w false d s := by
  intro ha
  obtain ⟨n, h1⟩ := Types.sub_complete hw ha hd hs
  have h2 := (Types.c35_converts_iff hw hd hs n narrow false).2 h
  have h3 := (assign_yes_iff (narrow := narrow)).2 h1
  rw [h2] at h3
  cases h3

theorem checkAssign_ok {E : Env} (hw : Wf E.w) {d s t : Ty} {narrow : Bool} (hd : WfTy E.w d) (hs : WfTy E.w s)
    (h : checkAssign E d s narrow = .ok t) : CanPass E.w d s narrow ∧ (t = s ∧ Assignable E.w false d s ∨ t = d) := by
  unfold checkAssign at h
  by_cases hv : isVoid s = true
  · simp [hv] at h
  · rw [if_neg hv] at h
    rw [isVoid_iff hw hs] at hv
    cases ha : assign E.w E.n narrow false d s with
    | ok a =>
      rw [ha] at h
      simp only [Out.ok_bind] at h
      cases a with
      | no => cases h
      | yes =>
        cases h
        have := (Types.c35_assignable_iff hw hd hs).1.1 ⟨E.n, Types.assignPlain_true.2 (assign_yes_iff.1 ha)⟩
        exact ⟨⟨hv, .inl this⟩, .inl ⟨rfl, this⟩⟩
      | conv =>
        cases h
        exact ⟨⟨hv, .inr ((Types.c35_converts_iff hw hd hs _ _ _).1 ha)⟩, .inr rfl⟩
    | die m => rw [ha] at h; cases h
    | ub => rw [ha] at h; cases h

/-! The test of assignability never throws. -/

def NoDie {α : Type} (x : Out α) : Prop := ∀ m, x ≠ .die m

theorem NoDie.ok {α : Type} (a : α) : NoDie (Out.ok a) := by intro m h; cases h
theorem NoDie.ub {α : Type} : NoDie (Out.ub : Out α) := by intro m h; cases h
theorem NoDie.bind {α β : Type} {x : Out α} {f : α → Out β} (hx : NoDie x) (hf : ∀ a, NoDie (f a)) : NoDie (x >>= f) := by
  cases x with
  | ok a => exact hf a
  | die m => exact absurd rfl (hx m)
  | ub => exact NoDie.ub
theorem NoDie.ite {α : Type} {c : Prop} [Decidable c] {x y : Out α} (hx : NoDie x) (hy : NoDie y) : NoDie (if c then x else y) := by
  split <;> assumption

theorem superLoop_noDie {w : World} {d : VM.Bytes} (n : Nat) (p : Option VM.Bytes) : NoDie (Types.superLoop w d n p) := by
  induction n generalizing p with
  | zero => exact .ub
  | succ n ih =>
    cases p with
    | none => exact .ok _
    | some p =>
      simp only [Types.superLoop]
      refine .ite (.ok _) ?_
      split
      · exact .ub
      · exact ih _

theorem isSuperClass_noDie {w : World} (n d s : Nat) : NoDie (Types.isSuperClass w n d s) := by
  unfold Types.isSuperClass
  exact .ite (.ok _) (.ite (.ok _) (superLoop_noDie _ _))

theorem findLoop_noDie {w : World} {name : VM.Bytes} (n : Nat) (p : Option Nat) : NoDie (Types.findLoop w name n p) := by
  induction n generalizing p with
  | zero => exact .ub
  | succ n ih =>
    cases p with
    | none => exact .ok _
    | some p =>
      simp only [Types.findLoop]
      split
      · exact .ok _
      · exact ih _

theorem andAll_noDie {α : Type} {f : α → Out Bool} (h : ∀ a, NoDie (f a)) (l : List α) : NoDie (Types.andAll f l) := by
  induction l with
  | nil => exact .ok _
  | cons a l ih =>
    simp only [Types.andAll]
    refine .bind (h a) fun b => ?_
    cases b with
    | true => exact ih
    | false => exact .ok _

theorem assignWith_noDie {w : World} {sup hi : Nat → Nat → Out Bool} (hs : ∀ a b, NoDie (sup a b)) (hh : ∀ a b, NoDie (hi a b))
    (narrow im : Bool) (d s : Ty) : NoDie (Types.assignWith w sup hi narrow im d s) := by
  have h1 : ∀ a b, NoDie (do let b ← sup a b; Out.ok (Types.Ans.ofBool b)) := fun a b => .bind (hs a b) fun _ => .ok _
  have h2 : ∀ a b, NoDie (do let b ← hi a b; Out.ok (Types.Ans.ofBool b)) := fun a b => .bind (hh a b) fun _ => .ok _
  unfold Types.assignWith
  repeat' first
    | exact .ok _
    | exact .ub
    | exact h1 _ _
    | exact h2 _ _
    | refine .ite ?_ ?_
    | refine .bind (hs _ _) fun _ => ?_

theorem satisfyMethod_noDie {asg : Ty → Ty → Out Types.Ans} (h : ∀ d s, NoDie (asg d s)) (dm sm : Types.Method) :
    NoDie (Types.satisfyMethod asg dm sm) := by
  unfold Types.satisfyMethod
  refine .ite (.ok _) (.ite (.ok _) (.ite (.ok _) (.bind (andAll_noDie (fun p => .bind (h _ _) fun _ => .ok _) _) fun b => ?_)))
  exact .ite (.bind (h _ _) fun _ => .ok _) (.ok _)

theorem hasInterface_noDie {w : World} (n s d : Nat) : NoDie (Types.hasInterface w n s d) := by
  induction n generalizing s d with
  | zero => exact .ub
  | succ n ih =>
    simp only [Types.hasInterface]
    refine .ite (.ok _) ?_
    unfold Types.hasInterfaceCommonWith
    refine .ite (.ok _) (.ite (.ok _) (andAll_noDie (fun m => ?_) _))
    unfold Types.checkMethod
    refine .ite (.ok _) (.bind (findLoop_noDie _ _) fun r => ?_)
    cases r with
    | none => exact .ok _
    | some sm => exact satisfyMethod_noDie (assignWith_noDie (isSuperClass_noDie n) ih _ _) _ _

theorem assign_not_die {w : World} {n : Nat} {narrow im : Bool} {d s : Ty} {m : String} (h : assign w n narrow im d s = .die m) : False :=
  assignWith_noDie (isSuperClass_noDie n) (hasInterface_noDie n) narrow im d s m h

theorem checkAssign_die {E : Env} (hw : Wf E.w) {d s : Ty} {narrow : Bool} {msg : String} (hd : WfTy E.w d) (hs : WfTy E.w s)
    (h : checkAssign E d s narrow = .die msg) : ¬ CanPass E.w d s narrow := by
  unfold checkAssign at h
  rintro ⟨hv, hc⟩
  rw [← isVoid_iff hw hs] at hv
  rw [if_neg hv] at h
  rcases hc with hc | hc
  · obtain ⟨n, hn⟩ := Types.sub_complete hw hc hd hs
    have hn := (assign_yes_iff (narrow := narrow)).2 hn
    cases ha : assign E.w E.n narrow false d s with
    | ok a =>
      have e1 := Types.assign_mono (Nat.le_max_left n E.n) narrow false d s _ hn
      have e2 := Types.assign_mono (Nat.le_max_right n E.n) narrow false d s _ ha
      rw [e1] at e2
      cases e2
      rw [ha] at h
      cases h
    | die m =>
      exact assign_not_die ha
    | ub => rw [ha] at h; cases h
  · rw [(Types.c35_converts_iff hw hd hs E.n narrow false).2 hc] at h
    cases h

theorem checkAssign_complete {E : Env} (hw : Wf E.w) {d s : Ty} {narrow : Bool} (hd : WfTy E.w d) (hs : WfTy E.w s)
    (h : CanPass E.w d s narrow) : ∃ N, ∀ n, N ≤ n → ∃ t, checkAssign { E with n := n } d s narrow = .ok t := by
  obtain ⟨hv, hc⟩ := h
  rw [← isVoid_iff hw hs] at hv
  unfold checkAssign
  simp only [if_neg hv]
  rcases hc with hc | hc
  · obtain ⟨N, hN⟩ := Types.sub_complete hw hc hd hs
    have hN := (assign_yes_iff (narrow := narrow)).2 hN
    refine ⟨N, fun n hn => ⟨s, ?_⟩⟩
    rw [Types.assign_mono hn narrow false d s _ hN]
    rfl
  · refine ⟨0, fun n _ => ⟨d, ?_⟩⟩
    rw [(Types.c35_converts_iff hw hd hs n narrow false).2 hc]
    rfl

/-- The operands are passed as they are, or after a conversion to the type of the parameter. -/
def Terms (w : World) (ps : List (Param φ)) (ts : List (Ty × Bool)) (r : List Ty) : Prop :=
  r.length = ts.length ∧ ∀ (j : Nat) (p : Param φ) (t : Ty × Bool) (t' : Ty), ps[j]? = some p → ts[j]? = some t → r[j]? = some t' →
    (t' = t.1 ∧ Assignable w false p.ty t.1 ∨ t' = p.ty)

theorem checkTerms_ok {E : Env} (hw : Wf E.w) : ∀ {ps : List (Param φ)} {ts : List (Ty × Bool)} {r : List Ty},
    (∀ p ∈ ps, WfTy E.w p.ty) → (∀ t ∈ ts, WfTy E.w t.1) → checkTerms E ps ts = .ok r →
    ts.length ≤ ps.length ∧ Terms E.w ps ts r ∧
    ∀ (j : Nat) (p : Param φ) (t : Ty × Bool), ps[j]? = some p → ts[j]? = some t → CanPass E.w p.ty t.1 t.2 := by
  intro ps
  induction ps with
  | nil =>
    intro ts r _ _ h
    cases ts with
    | nil => simp only [checkTerms] at h; cases h; exact ⟨by simp, ⟨rfl, by intro j p t t' h; simp at h⟩, by intro j p t h; simp at h⟩
    | cons t ts => simp only [checkTerms] at h; cases h
  | cons p ps ih =>
    intro ts r hp ht h
    cases ts with
    | nil => simp only [checkTerms] at h; cases h; exact ⟨by simp, ⟨rfl, by intro j p t t' _ h; simp at h⟩, by intro j p t _ h; simp at h⟩
    | cons t ts =>
      simp only [checkTerms] at h
      cases hc : checkAssign E p.ty t.1 t.2 with
      | ok t' =>
        rw [hc] at h
        simp only [Out.ok_bind] at h
        cases hr : checkTerms E ps ts with
        | ok r' =>
          rw [hr] at h
          simp only [Out.ok_bind] at h
          cases h
          obtain ⟨a1, a2⟩ := checkAssign_ok hw (hp p (by simp)) (ht t (by simp)) hc
          obtain ⟨b1, ⟨b2, b3⟩, b4⟩ := ih (fun q hq => hp q (List.mem_cons_of_mem _ hq)) (fun q hq => ht q (List.mem_cons_of_mem _ hq)) hr
          refine ⟨by simp; omega, ⟨by simp; omega, ?_⟩, ?_⟩
          · intro j q u u' h1 h2 h3
            cases j with
            | zero => simp only [List.getElem?_cons_zero, Option.some.injEq] at h1 h2 h3; subst h1 h2 h3; exact a2
            | succ j => exact b3 j q u u' (by simpa using h1) (by simpa using h2) (by simpa using h3)
          · intro j q u h1 h2
            cases j with
            | zero => simp only [List.getElem?_cons_zero, Option.some.injEq] at h1 h2; subst h1 h2; exact a1
            | succ j => exact b4 j q u (by simpa using h1) (by simpa using h2)
        | die m => rw [hr] at h; cases h
        | ub => rw [hr] at h; cases h
      | die m => rw [hc] at h; cases h
      | ub => rw [hc] at h; cases h

theorem checkTerms_die {E : Env} (hw : Wf E.w) : ∀ {ps : List (Param φ)} {ts : List (Ty × Bool)} {msg : String},
    (∀ p ∈ ps, WfTy E.w p.ty) → (∀ t ∈ ts, WfTy E.w t.1) → checkTerms E ps ts = .die msg →
    ¬ (ts.length ≤ ps.length ∧
      ∀ (j : Nat) (p : Param φ) (t : Ty × Bool), ps[j]? = some p → ts[j]? = some t → CanPass E.w p.ty t.1 t.2) := by
  intro ps
  induction ps with
  | nil =>
    intro ts msg _ _ h
    cases ts with
    | nil => simp only [checkTerms] at h; cases h
    | cons t ts => intro hh; simp at hh
  | cons p ps ih =>
    intro ts msg hp ht h
    cases ts with
    | nil => simp only [checkTerms] at h; cases h
    | cons t ts =>
      rintro ⟨g1, g2⟩
      simp only [checkTerms] at h
      cases hc : checkAssign E p.ty t.1 t.2 with
      | ok t' =>
        rw [hc] at h
        simp only [Out.ok_bind] at h
        cases hr : checkTerms E ps ts with
        | ok r' => rw [hr] at h; cases h
        | die m =>
          exact ih (fun q hq => hp q (List.mem_cons_of_mem _ hq)) (fun q hq => ht q (List.mem_cons_of_mem _ hq)) hr
            ⟨by simpa using g1, fun j q u h1 h2 => g2 (j + 1) q u (by simpa using h1) (by simpa using h2)⟩
        | ub => rw [hr] at h; cases h
      | die m => exact checkAssign_die hw (hp p (by simp)) (ht t (by simp)) hc (g2 0 p t rfl rfl)
      | ub => rw [hc] at h; cases h

theorem checkTerms_complete {E : Env} (hw : Wf E.w) : ∀ {ps : List (Param φ)} {ts : List (Ty × Bool)},
    (∀ p ∈ ps, WfTy E.w p.ty) → (∀ t ∈ ts, WfTy E.w t.1) → ts.length ≤ ps.length →
    (∀ (j : Nat) (p : Param φ) (t : Ty × Bool), ps[j]? = some p → ts[j]? = some t → CanPass E.w p.ty t.1 t.2) →
    ∃ N, ∀ n, N ≤ n → ∃ r, checkTerms { E with n := n } ps ts = .ok r := by
  intro ps
  induction ps with
  | nil =>
    intro ts _ _ h _
    cases ts with
    | nil => exact ⟨0, fun n _ => ⟨_, rfl⟩⟩
    | cons t ts => simp at h
  | cons p ps ih =>
    intro ts hp ht h g
    cases ts with
    | nil => exact ⟨0, fun n _ => ⟨_, rfl⟩⟩
    | cons t ts =>
      obtain ⟨N1, h1⟩ := checkAssign_complete hw (hp p (by simp)) (ht t (by simp)) (g 0 p t rfl rfl)
      obtain ⟨N2, h2⟩ := ih (fun q hq => hp q (List.mem_cons_of_mem _ hq)) (fun q hq => ht q (List.mem_cons_of_mem _ hq)) (by simpa using h)
        (fun j q u h1 h2 => g (j + 1) q u (by simpa using h1) (by simpa using h2))
      refine ⟨max N1 N2, fun n hn => ?_⟩
      obtain ⟨t', e1⟩ := h1 n (by omega)
      obtain ⟨r, e2⟩ := h2 n (by omega)
      exact ⟨t' :: r, by simp only [checkTerms, e1, e2, Out.ok_bind]⟩

/-! ## Between the caller and the callee -/

/-- The first `n` parameters, and only these, are below `wd`. -/
def Below (E : Env) (ps : List (Param φ)) (idx n wd : Nat) : Prop :=
  (∀ j, j < ps.length → j < n → idx + total E (ps.take (j + 1)) ≤ wd) ∧ (∀ j, j < ps.length → n ≤ j → wd ≤ idx + total E (ps.take j))

theorem Below.head {E : Env} (hE : EnvOk E) {p : Param φ} {ps : List (Param φ)} {idx n wd : Nat} (h : Below E (p :: ps) idx (n + 1) wd) : idx < wd := by
  have := h.1 0 (by simp) (by omega)
  simp only [List.take_succ_cons, List.take_zero, total] at this
  have := width_pos hE (t := p.ty)
  omega

theorem Below.tail {E : Env} {p : Param φ} {ps : List (Param φ)} {idx n wd : Nat} (h : Below E (p :: ps) idx n wd) :
    Below E ps (idx + width E p.ty) (n - 1) wd := by
  refine ⟨fun j h1 h2 => ?_, fun j h1 h2 => ?_⟩
  · have := h.1 (j + 1) (by simpa using h1) (by omega)
    simpa only [List.take_succ_cons, total, Nat.add_assoc] using this
  · have := h.2 (j + 1) (by simpa using h1) (by omega)
    simpa only [List.take_succ_cons, total, Nat.add_assoc] using this

theorem checkArgs_ok {E : Env} (hE : EnvOk E) {F : Fl φ} (fits : Nat → Ty → Bool) (s : List (Cell φ)) (wd : Nat) :
    ∀ (ps : List (Param φ)) (idx n : Nat) (ra : List (Call.Arg Ty (Cell φ))) (g : Nat → Nat → Cell φ),
    RArgs E F ps idx ra → Below E ps idx n wd →
    (∀ (j : Nat) (p : Param φ), j < n → ps[j]? = some p → At s (idx + total E (ps.take j)) (width E p.ty) (g j)) →
    ∃ b, Call.checkArgs (cellFits fits) s wd ra = .ok b ∧
      (b = true ↔ ∀ (j : Nat) (p : Param φ), j < n → ps[j]? = some p → isObject E.w p.ty = true → cellFits fits (g j 0) p.ty = true) := by
  intro ps
  induction ps with
  | nil =>
    intro idx n ra g h _ _
    simp only [RArgs] at h
    subst h
    exact ⟨true, rfl, by simp⟩
  | cons p ps ih =>
    intro idx n ra g h hb hf
    obtain ⟨a, r, rfl, h1, h2, h3, h4, h5⟩ := h
    simp only [Call.checkArgs, h1, h2, h3]
    cases n with
    | zero =>
      have := hb.2 0 (by simp) (by omega)
      simp only [List.take_zero, total] at this
      rw [if_pos (by omega)]
      exact ⟨true, rfl, by intro _; intro j q hj; omega, by simp⟩
    | succ n =>
      have hlt := hb.head hE
      rw [if_neg (by omega)]
      obtain ⟨b, e, hbiff⟩ := ih (idx + width E p.ty) n r (fun j => g (j + 1)) h5 hb.tail (fun j q hj hq => by
        have := hf (j + 1) q (by omega) (by simpa using hq)
        simpa only [List.take_succ_cons, total, Nat.add_assoc] using this)
      have rest : (∀ (j : Nat) (q : Param φ), j < n + 1 → (p :: ps)[j]? = some q → isObject E.w q.ty = true → cellFits fits (g j 0) q.ty = true) ↔
          (isObject E.w p.ty = true → cellFits fits (g 0 0) p.ty = true) ∧
          ∀ (j : Nat) (q : Param φ), j < n → ps[j]? = some q → isObject E.w q.ty = true → cellFits fits (g (j + 1) 0) q.ty = true := by
        constructor
        · intro hh
          exact ⟨hh 0 p (by omega) rfl, fun j q hj hq => hh (j + 1) q (by omega) (by simpa using hq)⟩
        · rintro ⟨k1, k2⟩ j q hj hq
          cases j with
          | zero => simp only [List.getElem?_cons_zero, Option.some.injEq] at hq; subst hq; exact k1
          | succ j => exact k2 j q (by omega) (by simpa using hq)
      rw [rest]
      cases ho : isObject E.w p.ty with
      | false =>
        simp only [Bool.false_eq_true, if_false, false_implies, true_and]
        exact ⟨b, e, hbiff⟩
      | true =>
        have f0 := hf 0 p (by omega) rfl 0 (width_pos hE)
        simp only [List.take_zero, total, Nat.add_zero] at f0
        simp only [if_true, Call.slot, f0, Out.ok_bind, forall_const]
        by_cases hfit : cellFits fits (g 0 0) p.ty = true
        · rw [if_pos hfit]
          exact ⟨b, e, by rw [hbiff]; simp [hfit]⟩
        · rw [if_neg hfit]
          exact ⟨false, rfl, by simp [hfit]⟩

theorem fillDefaults_drop {E : Env} (hE : EnvOk E) {F : Fl φ} (wd : Nat) (s : List (Cell φ)) : ∀ (k : Nat) (ps : List (Param φ)) (idx n : Nat)
    (ra : List (Call.Arg Ty (Cell φ))), RArgs E F ps idx ra → Below E ps idx n wd → k ≤ n →
    Call.fillDefaults wd (ra.drop k) s = Call.fillDefaults wd ra s := by
  intro k
  induction k with
  | zero => intro ps idx n ra _ _ _; simp
  | succ k ih =>
    intro ps idx n ra h hb hk
    cases ps with
    | nil => simp only [RArgs] at h; subst h; simp
    | cons p ps =>
      obtain ⟨a, r, rfl, h1, h2, h3, h4, h5⟩ := h
      obtain ⟨n, rfl⟩ : ∃ n', n = n' + 1 := ⟨n - 1, by omega⟩
      have hlt := hb.head hE
      simp only [List.drop_succ_cons, Call.fillDefaults, h3]
      rw [if_neg (by omega)]
      exact ih ps _ n r h5 hb.tail (by omega)

theorem fillDefaults_ok {E : Env} (hE : EnvOk E) {F : Fl φ} (wd : Nat) : ∀ (ps : List (Param φ)) (idx n : Nat) (ra : List (Call.Arg Ty (Cell φ)))
    (s : List (Cell φ)), RArgs E F ps idx ra → Below E ps idx n wd → idx + total E ps ≤ s.length →
    (∀ (j : Nat) (p : Param φ), n ≤ j → ps[j]? = some p → p.dflt ≠ none) →
    ∃ s', Call.fillDefaults wd ra s = .ok s' ∧ s'.length = s.length ∧ (∀ i, i < idx ∨ i < wd → s'[i]? = s[i]?) ∧
      ∀ (j : Nat) (p : Param φ), n ≤ j → ps[j]? = some p →
        ∃ d c, p.dflt = some d ∧ dfltCell E F p.ty d = .ok c ∧ s'[idx + total E (ps.take j)]? = some c := by
  intro ps
  induction ps with
  | nil =>
    intro idx n ra s h _ _ _
    simp only [RArgs] at h
    subst h
    exact ⟨s, rfl, rfl, fun _ _ => rfl, by intro j p _ h; simp at h⟩
  | cons p ps ih =>
    intro idx n ra s h hb hl hd
    obtain ⟨a, r, rfl, h1, h2, h3, h4, h5⟩ := h
    simp only [Call.fillDefaults, h3]
    simp only [total] at hl
    have hpos := width_pos hE (t := p.ty)
    have shift : ∀ (m : Nat) (s' : List (Cell φ)), (∀ (j : Nat) (q : Param φ), m ≤ j → ps[j]? = some q →
        ∃ d c, q.dflt = some d ∧ dfltCell E F q.ty d = .ok c ∧ s'[idx + width E p.ty + total E (ps.take j)]? = some c) →
        ∀ (j : Nat) (q : Param φ), m + 1 ≤ j → (p :: ps)[j]? = some q →
        ∃ d c, q.dflt = some d ∧ dfltCell E F q.ty d = .ok c ∧ s'[idx + total E ((p :: ps).take j)]? = some c := by
      intro m s' hh j q hj hq
      obtain ⟨j, rfl⟩ : ∃ j', j = j' + 1 := ⟨j - 1, by omega⟩
      have := hh j q (by omega) (by simpa using hq)
      simpa only [List.take_succ_cons, total, Nat.add_assoc] using this
    cases n with
    | zero =>
      have hge := hb.2 0 (by simp) (by omega)
      simp only [List.take_zero, total, Nat.add_zero] at hge
      rw [if_pos (by omega), if_pos (by omega)]
      obtain ⟨s', e, l, o, f⟩ := ih (idx + width E p.ty) 0 r (s.set idx a.default) h5 hb.tail (by simp; omega)
        (fun j q hj hq => hd (j + 1) q (by omega) (by simpa using hq))
      refine ⟨s', e, by simpa using l, ?_, ?_⟩
      · intro i hi
        rw [o i (by omega), List.getElem?_set_ne (by omega)]
      · intro j q hj hq
        cases j with
        | zero =>
          simp only [List.getElem?_cons_zero, Option.some.injEq] at hq
          subst hq
          cases hdp : p.dflt with
          | none => exact absurd hdp (hd 0 p (by omega) rfl)
          | some d =>
            refine ⟨d, a.default, rfl, h4 d hdp, ?_⟩
            simp only [List.take_zero, total, Nat.add_zero]
            rw [o idx (by omega), List.getElem?_set_self (by omega)]
        | succ j => exact shift 0 s' f (j + 1) q (by omega) hq
    | succ n =>
      have hlt := hb.head hE
      rw [if_neg (by omega)]
      obtain ⟨s', e, l, o, f⟩ := ih (idx + width E p.ty) n r s h5 hb.tail (by omega)
        (fun j q hj hq => hd (j + 1) q (by omega) (by simpa using hq))
      exact ⟨s', e, l, fun i hi => o i (by omega), shift n s' f⟩

theorem rargs_defaults {E : Env} (hE : EnvOk E) {F : Fl φ} : ∀ {ps : List (Param φ)} {idx : Nat} {ra : List (Call.Arg Ty (Cell φ))}, RArgs E F ps idx ra →
    (∀ p ∈ ps, VarTy E.w p.ty) → (∀ p ∈ ps, ConstOk p) → ∀ p ∈ ps, ∀ d, p.dflt = some d → ∃ v, Default E F p.ty d v := by
  intro ps
  induction ps with
  | nil => intro idx ra _ _ _ p hp; simp at hp
  | cons q ps ih =>
    rintro idx ra ⟨a, r, -, -, -, -, h1, h2⟩ hv hc p hp d hd
    rcases List.mem_cons.1 hp with rfl | hp
    · rcases dfltCell_spec hE F (hv p (by simp)) d (fun s x h => hc p (by simp) s x (by rw [hd, h])) with ⟨x, q1, q2, q3⟩ | ⟨⟨msg, q1⟩, -⟩
      · exact ⟨x, q2⟩
      · rw [h1 d hd] at q1; cases q1
    · exact ih h2 (fun q hq => hv q (List.mem_cons_of_mem _ hq)) (fun q hq => hc q (List.mem_cons_of_mem _ hq)) p hp d hd

end Args
end SPVM
