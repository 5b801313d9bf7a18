import Verif.Lemmas.ExprCode
/-!
# Numeric expressions: from the source to the checked tree
-/
namespace SPVM
namespace Expr

instance (t) : Decidable (IsWide t) := by unfold IsWide; infer_instance
instance (t) : Decidable (IsWideInt t) := by unfold IsWideInt; infer_instance
instance (o a b) : Decidable (BinTypes o a b) := by unfold BinTypes; cases o <;> infer_instance

/-! ## Types -/

theorem binTypes_of_accepts (o : BinOp) (a b : NT) (h : Accepts o a b) : BinTypes o (leftTy o a b) (rightTy o a b) := by
  revert h
  cases o <;> cases a <;> cases b <;> decide

theorem widens_of_accepts (o : BinOp) (a b : NT) (h : Accepts o a b) : a.rank ≤ (leftTy o a b).rank ∧ b.rank ≤ (rightTy o a b).rank := by
  revert h
  cases o <;> cases a <;> cases b <;> decide

theorem binaryType_eq (a b : NT) : binaryType a b = common a b := by cases a <;> cases b <;> rfl

theorem promote_wide (t : NT) : IsWide (promote t) := by cases t <;> decide
theorem promote_int (t : NT) (h : t.IsInt) : IsWideInt (promote t) := by revert h; cases t <;> decide
theorem promote_widens (t : NT) : t.rank ≤ (promote t).rank := by cases t <;> decide

theorem resultTy_eq (o : BinOp) (a b : NT) : resultTy o a b = outTy o (leftTy o a b) := by
  rw [outTy_eq]; rfl

theorem typeOf_castTo {φ} (t : NT) (c : Op φ) : typeOf (castTo t c) = t := by
  unfold castTo; split
  · assumption
  · rfl

theorem promoteOp_eq {φ} (c : Op φ) : promoteOp c = castTo (promote (typeOf c)) c := by
  unfold promoteOp promote castTo
  cases h : typeOf c <;> simp [NT.basicTypeId, NT.rank]

theorem opAssigned_castTo {φ} (t : NT) (c : Op φ) : opAssigned (castTo t c) = opAssigned c := by
  unfold castTo; split <;> rfl

theorem opHolder_castTo {φ} {t : NT} {c : Op φ} {p} (h : opHolder (castTo t c) = some p) : typeOf c = t ∧ opHolder c = some p := by
  unfold castTo at h
  split at h
  · exact ⟨by assumption, h⟩
  · cases h

theorem opLast_castTo {φ} {t : NT} {c : Op φ} {l} (h : opLast (castTo t c) = some l) : opLast c = some l := by
  unfold castTo at h
  split at h
  · exact h
  · cases h

theorem good_castTo {φ} {K : Prop} {t : NT} {c : Op φ} (h : Good K c) : Good K (castTo t c) := by
  unfold castTo; split
  · exact h
  · exact ⟨h, by assumption⟩

theorem checkBin_ok {φ} (o : BinOp) (n : Bool) (a b : Op φ) (h : Accepts o (typeOf a) (typeOf b)) :
    checkBin o n a b = .ok (.bin o n (castTo (leftTy o (typeOf a) (typeOf b)) a) (castTo (rightTy o (typeOf a) (typeOf b)) b)) := by
  have hn : ∀ t u : NT, castTo (binaryType t u) = (castTo (common t u) : Op φ → Op φ) := fun t u => by rw [binaryType_eq]
  cases o <;> simp only [Accepts] at h <;> simp only [checkBin, checkNumeric, leftTy, rightTy, hn, promoteOp_eq]
  all_goals first
    | (rw [if_neg (by rw [(isInteger_iff _).2 h.1]; decide), if_neg (by rw [(isInteger_iff _).2 h.2]; decide)]; done)
    | (rw [if_neg (by simp [h.1]), if_neg (by simp [h.2])]
       congr 2 <;> simp [castTo, h.1, h.2]; done)
    | (have h2 : (typeOf b).IsInt := Nat.le_trans h.2 (by decide)
       rw [if_neg (by rw [(isInteger_iff _).2 h.1]; decide), if_neg (by rw [(isInteger_iff _).2 h2]; decide), if_neg]
       have := h.2
       revert this
       cases typeOf b <;> decide)

theorem checkBin_die {φ} (o : BinOp) (n : Bool) (a b : Op φ) (h : ¬ Accepts o (typeOf a) (typeOf b)) :
    ∃ msg, checkBin o n a b = .die msg := by
  cases o <;> simp only [Accepts, not_true] at h <;> simp only [checkBin] <;> try exact h.elim
  all_goals
    generalize typeOf a = s at *
    generalize typeOf b = t at *
    revert h
    cases s <;> cases t <;> intro h <;> first | exact ⟨_, rfl⟩ | exact absurd (by decide) h

/-! ## Assignments -/

def opLit {φ} : Op φ → Option (NT × Val φ)
  | .const t c => some (t, c)
  | _ => none

def opNarrow {φ} : Op φ → Bool
  | .bin _ n _ _ => n
  | _ => false

theorem basicTypeId_eq (t : NT) : t.basicTypeId = t.rank + 3 := by cases t <;> rfl
theorem rank_inj {s t : NT} (h : s.rank = t.rank) : s = t := by revert h; cases s <;> cases t <;> decide

theorem checkAssign_narrow {φ} (d : NT) (o a b) : checkAssign d (.bin o true a b : Op φ) = .ok (castTo d (.bin o true a b)) := by
  unfold checkAssign allowNarrowing castTo
  simp only [Out.ok_bind, basicTypeId_eq]
  by_cases h : typeOf (.bin o true a b) = d
  · rw [if_pos h, if_pos (by rw [h])]; rfl
  · rw [if_neg h, if_neg (fun hh => h (rank_inj (by omega)))]
    split <;> rfl

/-- The literals of a checked tree. -/
def OkLit {φ} : Op φ → Prop
  | .const t c => Literal t c
  | _ => True

theorem allowNarrowing_eq {φ} (d : NT) (c : Op φ) (hn : opNarrow c = false) (hl : OkLit c) :
    ∃ b, allowNarrowing d c = .ok b ∧ (¬ (typeOf c).rank ≤ d.rank → (b = true ↔ Narrows d (opLit c))) := by
  cases c with
  | const s x =>
    simp only [allowNarrowing, opLit, typeOf, basicTypeId_eq]
    by_cases hr : s.rank ≤ d.rank
    · rw [if_neg (by omega)]; exact ⟨_, rfl, fun h => absurd hr h⟩
    · rw [if_pos (by omega)]
      cases x with
      | i n =>
        simp only [OkLit, Literal] at hl
        rcases hl.1 with h | h | h
        · subst h; exact absurd (Nat.zero_le _) hr
        · subst h
          rw [if_pos (.inl rfl)]
          cases d <;> simp only [NT.rank] at hr <;> first | (exact absurd (by decide) hr) | skip
          · exact ⟨_, rfl, fun _ => by simp [Narrows, NT.IsInt, NT.rank, InRange, NT.bits]; omega⟩
          · exact ⟨_, rfl, fun _ => by simp [Narrows, NT.IsInt, NT.rank, InRange, NT.bits]; omega⟩
        · subst h
          rw [if_pos (.inr rfl)]
          cases d <;> simp only [NT.rank] at hr <;> first | (exact absurd (by decide) hr) | skip
          · exact ⟨_, rfl, fun _ => by simp [Narrows, NT.IsInt, NT.rank, InRange, NT.bits]; omega⟩
          · exact ⟨_, rfl, fun _ => by simp [Narrows, NT.IsInt, NT.rank, InRange, NT.bits]; omega⟩
          · exact ⟨_, rfl, fun _ => by simp [Narrows, NT.IsInt, NT.rank, InRange, NT.bits]; omega⟩
      | f y =>
        simp only [OkLit, Literal] at hl
        rcases hl with h | h
        · subst h; exact ⟨_, rfl, fun _ => by simp [Narrows]⟩
        · subst h; exact ⟨_, rfl, fun _ => by simp [Narrows]⟩
  | bin o n a b =>
    simp only [opNarrow] at hn; subst hn
    exact ⟨false, rfl, fun _ => by simp [opLit, Narrows]⟩
  | _ => exact ⟨false, rfl, fun _ => by simp [opLit, Narrows]⟩

theorem checkAssign_ok {φ} (d : NT) (c : Op φ) (hn : opNarrow c = false) (hl : OkLit c)
    (h : (typeOf c).rank ≤ d.rank ∨ Narrows d (opLit c)) : checkAssign d c = .ok (castTo d c) := by
  obtain ⟨b, h1, h2⟩ := allowNarrowing_eq d c hn hl
  unfold checkAssign castTo
  rw [h1]
  simp only [Out.ok_bind, basicTypeId_eq]
  by_cases he : typeOf c = d
  · rw [if_pos he, if_pos (by rw [he])]; rfl
  · rw [if_neg he, if_neg (fun hh => he (rank_inj (by omega)))]
    by_cases hr : (typeOf c).rank ≤ d.rank
    · have : (typeOf c).rank ≠ d.rank := fun hh => he (rank_inj hh)
      rw [if_pos (by omega)]; rfl
    · rw [if_neg (by omega), if_pos ((h2 hr).2 (h.resolve_left hr))]; rfl

theorem checkAssign_die {φ} (d : NT) (c : Op φ) (hn : opNarrow c = false) (hl : OkLit c)
    (h : ¬ ((typeOf c).rank ≤ d.rank ∨ Narrows d (opLit c))) : checkAssign d c = .die msgAssign := by
  obtain ⟨b, h1, h2⟩ := allowNarrowing_eq d c hn hl
  have hr : ¬ (typeOf c).rank ≤ d.rank := fun hh => h (.inl hh)
  unfold checkAssign
  rw [h1]
  simp only [Out.ok_bind, basicTypeId_eq]
  rw [if_neg (by omega), if_neg (by omega), if_neg (fun hh => h (.inr ((h2 hr).1 hh)))]

/-! ## The checked tree -/

/-- A variable of the source, or one of the names `k`, …, `k' - 1` made while parsing. -/
def Comes (k k' : Nat) (vs : Var → Prop) (p : MVar) : Prop := (∃ v, vs v ∧ p = userVar v) ∨ ∃ i, p.id = .old i ∧ k ≤ i ∧ i < k'

theorem Comes.mono {k k' j j' : Nat} {vs ws : Var → Prop} {p : MVar} (h : Comes k k' vs p) (hj : j ≤ k) (hj' : k' ≤ j')
    (hv : ∀ v, vs v → ws v) : Comes j j' ws p := by
  rcases h with ⟨v, h1, h2⟩ | ⟨i, h1, h2, h3⟩
  · exact .inl ⟨v, hv v h1, h2⟩
  · exact .inr ⟨i, h1, by omega, by omega⟩

structure Checked {φ} (e : Expr φ) (k : Nat) (c : Op φ) : Prop where
  mono : k ≤ (build e k).2
  type : typeOf c = ty e
  copies : opCopies c = copies e
  lit : opLit c = litOf e
  okLit : OkLit c
  narrow : opNarrow c = false
  isSeq : opIsSeq c = isSequence e
  last : ∀ l, opLast c = some l → opIsSeq l = false ∨ ∃ b, lastOf e = some b ∧ opIsSeq l = isSequence b
  holder : ∀ p, opHolder c = some p → Comes k (build e k).2 (fun v => holder e = some v) p
  assigned : ∀ p ∈ opAssigned c, Comes k (build e k).2 (fun v => v ∈ assigned e) p
  good : ∀ K : Prop, (K → Calm e) → (K → Kept e) → Good K c

/-- `$v OP= src`. -/
def specialOp {φ} (o : BinOp) (v : Var) (c : Op φ) (k : Nat) : Op φ :=
  .seq (.assign ⟨v.ty, .old k⟩ (.var (userVar v)))
    (.assign (userVar v) (castTo v.ty
      (.bin o true (castTo (leftTy o v.ty (typeOf c)) (.var ⟨v.ty, .old k⟩)) (castTo (rightTy o v.ty (typeOf c)) c))))

theorem check_special {φ} (o : BinOp) (v : Var) (src c : Op φ) (k : Nat) (hc : check src = .ok c) (h : Accepts o v.ty (typeOf c)) :
    check (buildSpecial o v src k) = .ok (specialOp o v c k) := by
  have h1 : checkAssign v.ty (.var (userVar v) : Op φ) = .ok (.var (userVar v)) := by
    rw [checkAssign_ok v.ty (.var (userVar v)) rfl trivial (.inl (Nat.le_refl _))]
    unfold castTo; rw [if_pos (show typeOf (.var (userVar v) : Op φ) = v.ty from rfl)]
  have h2 := checkBin_ok o true (.var ⟨v.ty, .old k⟩) c h
  have h3 := checkAssign_narrow (φ := φ) v.ty o (castTo (leftTy o v.ty (typeOf c)) (.var ⟨v.ty, .old k⟩)) (castTo (rightTy o v.ty (typeOf c)) c)
  simp only [buildSpecial, check, Out.ok_bind, hc]
  rw [h1, h2]
  simp only [Out.ok_bind]
  have e1 : ∀ (x : Out (Op φ)) (y : Op φ), x = .ok y → (do
      let a ← (pure (.assign ⟨v.ty, .old k⟩ (.var (userVar v))) : Out (Op φ))
      let b ← (do let e ← x; pure (.assign (userVar v) e) : Out (Op φ))
      (pure (Op.seq a b) : Out (Op φ))) = .ok (Op.seq (.assign ⟨v.ty, .old k⟩ (.var (userVar v))) (.assign (userVar v) y)) := by
    intro x y h; rw [h]; rfl
  exact e1 _ _ h3

theorem good_special {φ} {K : Prop} (o : BinOp) (v : Var) (c : Op φ) (j k : Nat) (hc : Good K c) (h : Accepts o v.ty (typeOf c))
    (ha : ∀ p ∈ opAssigned c, Comes j k (fun _ => True) p) : Good K (specialOp o v c k) := by
  refine ⟨⟨(by intro i h; cases h), (by intro i h; cases h), rfl, (fun _ l hl => by cases hl)⟩, good_castTo ⟨?_, ?_, ?_, ?_⟩, (by intro i h; cases h), ?_, ?_⟩
  · exact good_castTo (show NonTmp _ from by intro i h; cases h)
  · exact good_castTo hc
  · rw [typeOf_castTo, typeOf_castTo]; exact binTypes_of_accepts o v.ty (typeOf c) h
  · intro _ p hp hm
    rw [opAssigned_castTo] at hm
    have := (opHolder_castTo hp).2
    simp only [opHolder] at this
    injection this with this
    subst this
    rcases ha _ hm with ⟨w, _, h1⟩ | ⟨i, h1, h2, h3⟩
    · injection h1 with _ h1; cases h1
    · injection h1; omega
  · rw [typeOf_castTo]; rfl
  · intro _ l hl
    cases opLast_castTo hl

theorem assigned_special {φ} (o : BinOp) (v : Var) (c : Op φ) (j k : Nat) (hjk : j ≤ k) (vs : Var → Prop)
    (ha : ∀ p ∈ opAssigned c, Comes j k vs p) (hv : vs v) : ∀ p ∈ opAssigned (specialOp o v c k), Comes j (k + 1) vs p := by
  intro p hp
  simp only [specialOp, opAssigned, opAssigned_castTo, List.nil_append, List.cons_append, List.mem_cons] at hp
  rcases hp with h | h | h
  · subst h; exact .inr ⟨k, rfl, hjk, by omega⟩
  · subst h; exact .inl ⟨v, hv, rfl⟩
  · exact (ha p h).mono (Nat.le_refl _) (by omega) (fun _ h => h)

theorem castTo_copies {φ} (t : NT) (c : Op φ) : opCopies (castTo t c) = if typeOf c = t then opCopies c else false := by
  unfold castTo; split <;> rfl

theorem holder_special {φ} (o : BinOp) (v : Var) (c : Op φ) (k : Nat) : opHolder (specialOp o v c k) = some (userVar v) := by
  simp only [specialOp, opHolder]
  rw [castTo_copies]
  have : (if typeOf (.bin o true (castTo (leftTy o v.ty (typeOf c)) (.var ⟨v.ty, .old k⟩)) (castTo (rightTy o v.ty (typeOf c)) c)) = v.ty
    then opCopies (.bin o true (castTo (leftTy o v.ty (typeOf c)) (.var ⟨v.ty, .old k⟩)) (castTo (rightTy o v.ty (typeOf c)) c)) else false) = false := by
    split <;> rfl
  rw [this]; rfl

theorem build_mono {φ} (e : Expr φ) : ∀ k, k ≤ (build e k).2 := by
  induction e with
  | var v => intro k; exact Nat.le_refl _
  | lit t c => intro k; exact Nat.le_refl _
  | cast t e ih => intro k; exact ih k
  | un o e ih => intro k; exact ih k
  | bin o a b iha ihb => intro k; exact Nat.le_trans (iha k) (ihb _)
  | assign v e ih => intro k; exact ih k
  | special o v e ih => intro k; exact Nat.le_succ_of_le (ih k)
  | pre up v => intro k; exact Nat.le_succ k
  | post up v => intro k; exact Nat.le_succ k
  | seq a b iha ihb => intro k; exact Nat.le_trans (iha k) (ihb _)

theorem accepts_inc (up : Bool) (t : NT) : Accepts (if up then .add else .sub) t .int := by cases up <;> trivial

theorem checked {φ} (e : Expr φ) : ∀ k, Literals e → Typed e → ∃ c, check (build e k).1 = .ok c ∧ Checked e k c := by
  induction e with
  | var v =>
    intro k _ _
    exact ⟨.var (userVar v), rfl, Nat.le_refl _, rfl, rfl, rfl, trivial, rfl, rfl, (fun l h => by cases h),
      (fun p h => by injection h with h; exact .inl ⟨v, rfl, h.symm⟩), (fun p h => by cases h), fun _ _ _ i h => by cases h⟩
  | lit t c =>
    intro k hl _
    refine ⟨.const t c, rfl, Nat.le_refl _, rfl, rfl, rfl, hl, rfl, rfl, (fun l h => by cases h),
      (fun p h => by cases h), (fun p h => by cases h), fun _ _ _ h => ?_⟩
    subst h
    cases c with
    | i n => rcases hl.1 with h | h | h <;> cases h
    | f x => rcases hl with h | h <;> cases h
  | cast t e ih =>
    intro k hl ht
    obtain ⟨c, h1, h2⟩ := ih k hl ht
    refine ⟨castTo t c, by simp only [build, check, h1]; rfl, ?_⟩
    have hm := h2.mono
    by_cases he : typeOf c = t
    · have he' : ty e = t := by rw [← h2.type]; exact he
      have hc : castTo t c = c := by unfold castTo; rw [if_pos he]
      rw [hc]
      refine ⟨hm, he, ?_, ?_, h2.okLit, h2.narrow, ?_, ?_, ?_, h2.assigned, h2.good⟩
      · simp only [copies]; rw [if_pos he']; exact h2.copies
      · simp only [litOf]; rw [if_pos he']; exact h2.lit
      · simp only [isSequence]; rw [if_pos he']; exact h2.isSeq
      · simp only [lastOf]; rw [if_pos he']; exact h2.last
      · simp only [Expr.holder]; rw [if_pos he']; exact h2.holder
    · have he' : ¬ ty e = t := by rw [← h2.type]; exact he
      have hc : castTo t c = .cast t c := by unfold castTo; rw [if_neg he]
      rw [hc]
      refine ⟨hm, rfl, ?_, ?_, trivial, rfl, ?_, (fun l h => by cases h), (fun p h => by cases h), h2.assigned, fun K g1 g2 => ⟨h2.good K g1 g2, he⟩⟩
      · simp only [copies]; rw [if_neg he']; rfl
      · simp only [litOf]; rw [if_neg he']; rfl
      · simp only [isSequence]; rw [if_neg he']; rfl
  | un o e ih =>
    intro k hl ht
    obtain ⟨c, h1, h2⟩ := ih k hl ht.1
    refine ⟨.un o (castTo (promote (typeOf c)) c), ?_, h2.mono, ?_, rfl, rfl, trivial, rfl, rfl, (fun l h => by cases h),
      (fun p h => by cases h), ?_, ?_⟩
    · simp only [build, check, h1, Out.ok_bind]
      rw [if_neg, promoteOp_eq]; rfl
      rintro ⟨hb, hi⟩
      rw [h2.type] at hi
      exact (isInteger_false _).1 hi (ht.2 hb)
    · simp only [typeOf, ty]; rw [typeOf_castTo, h2.type]
    · intro p hp
      simp only [opAssigned, opAssigned_castTo] at hp
      exact h2.assigned p hp
    · intro K g1 g2
      refine ⟨good_castTo (h2.good K g1 g2), ?_, fun hb => ?_⟩
      · rw [typeOf_castTo]; exact promote_wide _
      · rw [typeOf_castTo, h2.type]; exact promote_int _ (ht.2 hb)
  | bin o a b iha ihb =>
    intro k hl ht
    obtain ⟨ca, a1, a2⟩ := iha k hl.1 ht.1
    obtain ⟨cb, b1, b2⟩ := ihb (build a k).2 hl.2 ht.2.1
    have hacc : Accepts o (typeOf ca) (typeOf cb) := by rw [a2.type, b2.type]; exact ht.2.2
    refine ⟨.bin o false (castTo (leftTy o (typeOf ca) (typeOf cb)) ca) (castTo (rightTy o (typeOf ca) (typeOf cb)) cb), ?_,
      Nat.le_trans a2.mono b2.mono, ?_, rfl, rfl, trivial, rfl, rfl, (fun l h => by cases h), (fun p h => by cases h), ?_, ?_⟩
    · simp only [build, check, a1, b1, Out.ok_bind]
      exact checkBin_ok o false ca cb hacc
    · rw [typeOf_bin, typeOf_castTo, ← resultTy_eq, a2.type, b2.type]; rfl
    · intro p hp
      simp only [opAssigned, opAssigned_castTo, List.mem_append] at hp
      rcases hp with h | h
      · exact (a2.assigned p h).mono (Nat.le_refl _) b2.mono (fun v h => List.mem_append_left _ h)
      · exact (b2.assigned p h).mono a2.mono (Nat.le_refl _) (fun v h => List.mem_append_right _ h)
    · intro K g1 g2
      refine ⟨good_castTo (a2.good K (fun k => (g1 k).1) (fun k => (g2 k).1)), good_castTo (b2.good K (fun k => (g1 k).2.1) (fun k => (g2 k).2)), ?_, ?_⟩
      · rw [typeOf_castTo, typeOf_castTo]; exact binTypes_of_accepts _ _ _ hacc
      · intro hK p hp hm
        rw [opAssigned_castTo] at hm
        obtain ⟨he, hp⟩ := opHolder_castTo hp
        rw [a2.type, b2.type] at he
        rcases a2.holder p hp with ⟨v, h1, h2⟩ | ⟨i, h1, h2, h3⟩
        · rcases b2.assigned p hm with ⟨w, h3, h4⟩ | ⟨j, h3, h4, h5⟩
          · have hvw : v = w := by
              rw [h2] at h4
              cases v; cases w
              injection h4 with q1 q2
              injection q2 with q2
              simp only at q1 q2
              rw [q1, q2]
            subst hvw
            exact (g1 hK).2.2 he v h1 h3
          · rw [h2] at h3; cases h3
        · rcases b2.assigned p hm with ⟨w, h3, h4⟩ | ⟨j, h3, h4, h5⟩
          · rw [h4] at h1; cases h1
          · rw [h1] at h3; injection h3; omega
  | assign v e ih =>
    intro k hl ht
    obtain ⟨c, h1, h2⟩ := ih k hl ht.1
    have hca := checkAssign_ok v.ty c h2.narrow h2.okLit (by rw [h2.type, h2.lit]; exact ht.2)
    refine ⟨.assign (userVar v) (castTo v.ty c), ?_, h2.mono, rfl, rfl, rfl, trivial, rfl, rfl, (fun l h => by cases h), ?_, ?_, ?_⟩
    · simp only [build, check, h1, Out.ok_bind]
      show (checkAssign v.ty c >>= _) = _
      rw [hca]; rfl
    · intro p hp
      simp only [opHolder, castTo_copies] at hp
      by_cases hq : (if typeOf c = v.ty then opCopies c else false) = true
      · rw [if_pos hq] at hp
        obtain ⟨g1, g2⟩ := opHolder_castTo hp
        rw [if_pos g1, h2.copies] at hq
        refine (h2.holder p g2).mono (Nat.le_refl _) (Nat.le_refl _) (fun w hw => ?_)
        simp only [Expr.holder]
        rw [if_pos ⟨by rw [← h2.type]; exact g1, hq⟩]
        exact hw
      · rw [if_neg hq] at hp
        injection hp with hp
        refine .inl ⟨v, ?_, hp.symm⟩
        simp only [Expr.holder]
        rw [if_neg]
        rintro ⟨q1, q2⟩
        rw [if_pos (by rw [h2.type]; exact q1), h2.copies] at hq
        exact hq q2
    · intro p hp
      simp only [opAssigned, opAssigned_castTo, List.mem_cons] at hp
      rcases hp with h | h
      · exact .inl ⟨v, List.mem_cons_self, h⟩
      · exact (h2.assigned p h).mono (Nat.le_refl _) (Nat.le_refl _) (fun v h => List.mem_cons_of_mem _ h)
    · intro K g1 g2
      refine ⟨good_castTo (h2.good K g1 (fun k => (g2 k).1)), (by intro i h; cases h), typeOf_castTo _ _, ?_⟩
      intro hK l hll
      unfold castTo at hll
      split at hll
      · rename_i he
        rcases h2.last l hll with h | ⟨b, hb1, hb2⟩
        · exact h
        · rw [hb2]; exact (g2 hK).2 (by rw [← h2.type]; exact he) b hb1
      · cases hll
  | special o v e ih =>
    intro k hl ht
    obtain ⟨c, h1, h2⟩ := ih k hl ht.1
    have hacc : Accepts o.bin v.ty (typeOf c) := by rw [h2.type]; exact ht.2
    refine ⟨specialOp o.bin v c (build e k).2, check_special _ _ _ _ _ h1 hacc, Nat.le_succ_of_le h2.mono, rfl, rfl, rfl, trivial, rfl, rfl, ?_, ?_, ?_, ?_⟩
    · intro l hll; injection hll with hll; subst hll; exact .inl rfl
    · intro p hp
      rw [holder_special] at hp
      injection hp with hp
      exact .inl ⟨v, rfl, hp.symm⟩
    · refine assigned_special _ _ _ k _ h2.mono _ (fun p hp => ?_) List.mem_cons_self
      exact (h2.assigned p hp).mono (Nat.le_refl _) (Nat.le_refl _) (fun v h => List.mem_cons_of_mem _ h)
    · intro K g1 g2
      exact good_special _ _ _ k _ (h2.good K g1 g2) hacc (fun p hp => (h2.assigned p hp).mono (Nat.le_refl _) (Nat.le_refl _) (fun _ _ => trivial))
  | pre up v =>
    intro k _ _
    have hacc := accepts_inc up v.ty
    refine ⟨specialOp (if up then .add else .sub) v (.const .int (.i 1)) k, check_special _ _ _ _ _ rfl hacc, Nat.le_succ k,
      rfl, rfl, rfl, trivial, rfl, rfl, ?_, ?_, ?_, ?_⟩
    · intro l hll; injection hll with hll; subst hll; exact .inl rfl
    · intro p hp
      rw [holder_special] at hp
      injection hp with hp
      exact .inl ⟨v, rfl, hp.symm⟩
    · exact assigned_special _ _ _ k _ (Nat.le_refl _) _ (fun p hp => by cases hp) List.mem_cons_self
    · intro K g1 g2
      exact good_special _ _ _ k _ (show NT.int ≠ .short by decide) hacc (fun p hp => by cases hp)
  | post up v =>
    intro k _ _
    have hacc := accepts_inc up v.ty
    refine ⟨.seq (specialOp (if up then .add else .sub) v (.const .int (.i 1)) k) (.var ⟨v.ty, .old k⟩), ?_, Nat.le_succ k,
      rfl, rfl, rfl, trivial, rfl, rfl, ?_, ?_, ?_, ?_⟩
    · simp only [build, check]
      rw [check_special _ _ _ _ _ rfl hacc]; rfl
    · intro l hll; injection hll with hll; subst hll; exact .inl rfl
    · intro p hp
      injection hp with hp
      exact .inr ⟨k, by rw [← hp], Nat.le_refl _, Nat.lt_succ_self k⟩
    · have := assigned_special (if up then .add else .sub) v (.const .int (.i 1) : Op φ) k k (Nat.le_refl _) (fun w => w ∈ [v])
        (fun p hp => by cases hp) List.mem_cons_self
      intro p hp
      simp only [opAssigned, List.append_nil] at hp
      exact this p hp
    · intro K g1 g2
      exact ⟨good_special _ _ _ k _ (show NT.int ≠ .short by decide) hacc (fun p hp => by cases hp), by intro i h; cases h⟩
  | seq a b iha ihb =>
    intro k hl ht
    obtain ⟨ca, a1, a2⟩ := iha k hl.1 ht.1
    obtain ⟨cb, b1, b2⟩ := ihb (build a k).2 hl.2 ht.2
    refine ⟨.seq ca cb, ?_, Nat.le_trans a2.mono b2.mono, b2.type, rfl, rfl, trivial, rfl, rfl, ?_, ?_, ?_, ?_⟩
    · simp only [build, check, a1, b1]; rfl
    · intro l hll; injection hll with hll; subst hll; exact .inr ⟨b, rfl, b2.isSeq⟩
    · intro p hp
      exact (b2.holder p hp).mono a2.mono (Nat.le_refl _) (fun _ h => h)
    · intro p hp
      simp only [opAssigned, List.mem_append] at hp
      rcases hp with h | h
      · exact (a2.assigned p h).mono (Nat.le_refl _) b2.mono (fun v h => List.mem_append_left _ h)
      · exact (b2.assigned p h).mono a2.mono (Nat.le_refl _) (fun v h => List.mem_append_right _ h)
    · intro K g1 g2
      exact ⟨a2.good K (fun k => (g1 k).1) (fun k => (g2 k).1), b2.good K (fun k => (g1 k).2) (fun k => (g2 k).2)⟩

/-- An expression that breaks a rule about types is rejected. -/
theorem rejected {φ} (e : Expr φ) : ∀ k, Literals e → ¬ Typed e → ∃ msg, check (build e k).1 = .die msg := by
  induction e with
  | var v => intro k _ h; exact absurd trivial h
  | lit t c => intro k _ h; exact absurd trivial h
  | cast t e ih =>
    intro k hl h
    obtain ⟨msg, h1⟩ := ih k hl h
    exact ⟨msg, by simp only [build, check, h1]; rfl⟩
  | un o e ih =>
    intro k hl h
    by_cases he : Typed e
    · obtain ⟨c, h1, h2⟩ := checked e k hl he
      refine ⟨msgInteger, ?_⟩
      simp only [build, check, h1, Out.ok_bind]
      rw [if_pos]
      have : ¬ (o = .bitNot → (ty e).IsInt) := fun hh => h ⟨he, hh⟩
      have ho : o = .bitNot := Classical.byContradiction fun hn => this fun h => absurd h hn
      exact ⟨ho, (isInteger_false _).2 (by rw [h2.type]; exact fun hi => this fun _ => hi)⟩
    · obtain ⟨msg, h1⟩ := ih k hl he
      exact ⟨msg, by simp only [build, check, h1]; rfl⟩
  | bin o a b iha ihb =>
    intro k hl h
    by_cases ha : Typed a
    · obtain ⟨ca, a1, a2⟩ := checked a k hl.1 ha
      by_cases hb : Typed b
      · obtain ⟨cb, b1, b2⟩ := checked b (build a k).2 hl.2 hb
        obtain ⟨msg, h1⟩ := checkBin_die o false ca cb (by rw [a2.type, b2.type]; exact fun hh => h ⟨ha, hb, hh⟩)
        exact ⟨msg, by simp only [build, check, a1, b1, Out.ok_bind]; exact h1⟩
      · obtain ⟨msg, h1⟩ := ihb (build a k).2 hl.2 hb
        exact ⟨msg, by simp only [build, check, a1, h1]; rfl⟩
    · obtain ⟨msg, h1⟩ := iha k hl.1 ha
      exact ⟨msg, by simp only [build, check, h1]; rfl⟩
  | assign v e ih =>
    intro k hl h
    by_cases he : Typed e
    · obtain ⟨c, h1, h2⟩ := checked e k hl he
      refine ⟨msgAssign, ?_⟩
      simp only [build, check, h1, Out.ok_bind]
      show (checkAssign v.ty c >>= _) = _
      rw [checkAssign_die v.ty c h2.narrow h2.okLit (by rw [h2.type, h2.lit]; exact fun hh => h ⟨he, hh⟩)]; rfl
    · obtain ⟨msg, h1⟩ := ih k hl he
      exact ⟨msg, by simp only [build, check, h1]; rfl⟩
  | special o v e ih =>
    intro k hl h
    have h0 : checkAssign v.ty (.var (userVar v) : Op φ) = .ok (.var (userVar v)) := by
      rw [checkAssign_ok v.ty (.var (userVar v)) rfl trivial (.inl (Nat.le_refl _))]
      unfold castTo; rw [if_pos (show typeOf (.var (userVar v) : Op φ) = v.ty from rfl)]
    by_cases he : Typed e
    · obtain ⟨c, h1, h2⟩ := checked e k hl he
      obtain ⟨msg, h3⟩ := checkBin_die o.bin true (.var ⟨v.ty, .old (build e k).2⟩) c (by rw [h2.type]; exact fun hh => h ⟨he, hh⟩)
      refine ⟨msg, ?_⟩
      simp only [build, buildSpecial, check, h1, Out.ok_bind]
      rw [h0, h3]; rfl
    · obtain ⟨msg, h1⟩ := ih k hl he
      refine ⟨msg, ?_⟩
      simp only [build, buildSpecial, check, h1, Out.ok_bind]
      rw [h0]; rfl
  | pre up v => intro k _ h; exact absurd trivial h
  | post up v => intro k _ h; exact absurd trivial h
  | seq a b iha ihb =>
    intro k hl h
    by_cases ha : Typed a
    · obtain ⟨ca, a1, a2⟩ := checked a k hl.1 ha
      obtain ⟨msg, h1⟩ := ihb (build a k).2 hl.2 (fun hb => h ⟨ha, hb⟩)
      exact ⟨msg, by simp only [build, check, a1, h1]; rfl⟩
    · obtain ⟨msg, h1⟩ := iha k hl.1 ha
      exact ⟨msg, by simp only [build, check, h1]; rfl⟩

/-! ## The meaning of the checked tree -/

/-- The memory holds the values of the variables. -/
def Rel {φ} (s : Store φ) (ms : Mem φ) : Prop := ∀ v : Var, ms v.ty (.user v.id) = s v

/-- Every variable holds a value of its type. -/
def TypedStore {φ} (s : Store φ) : Prop := ∀ v : Var, HasTy v.ty (s v)

/-- Only the names `k`, …, `k' - 1` made while parsing have changed. -/
def OldFrame {φ} (k k' : Nat) (ms ms1 : Mem φ) : Prop := ∀ t i, (i < k ∨ k' ≤ i) → ms1 t (.old i) = ms t (.old i)

def Match {φ} (k k' : Nat) (ms : Mem φ) (t : NT) : Outcome φ → Sem φ → Prop
  | .val s1 x, r => ∃ ms1, r = .val ms1 x ∧ Rel s1 ms1 ∧ OldFrame k k' ms ms1 ∧ HasTy t x ∧ TypedStore s1
  | .throws msg s1, r => ∃ ms1, r = .die msg ms1 ∧ Rel s1 ms1 ∧ TypedStore s1
  | .undefined, r => r = .ub

theorem Rel.set {φ} {s : Store φ} {ms : Mem φ} (h : Rel s ms) (v : Var) (x : Val φ) : Rel (s.set v x) (ms.set v.ty (.user v.id) x) := by
  intro w
  unfold Store.set Mem.set
  by_cases hw : w = v
  · subst hw; simp
  · rw [if_neg hw, if_neg]
    · exact h w
    · rintro ⟨h1, h2⟩
      injection h2 with h2
      exact hw (by cases w; cases v; simp only at h1 h2; rw [h1, h2])

theorem Rel.set_old {φ} {s : Store φ} {ms : Mem φ} (h : Rel s ms) (t i x) : Rel s (ms.set t (.old i) x) := by
  intro w
  rw [Mem.set_ne _ _ _ _ _ _ (fun hh => by cases hh.2)]
  exact h w

theorem TypedStore.set {φ} {s : Store φ} (h : TypedStore s) (v : Var) (x : Val φ) (hx : HasTy v.ty x) : TypedStore (s.set v x) := by
  intro w
  unfold Store.set
  split
  · rename_i hw; subst hw; exact hx
  · exact h w

theorem OldFrame.refl {φ} (k k' : Nat) (ms : Mem φ) : OldFrame k k' ms ms := fun _ _ _ => rfl
theorem OldFrame.set {φ} {k k' : Nat} {ms ms1 : Mem φ} (h : OldFrame k k' ms ms1) (t n x) : OldFrame k k' ms (ms1.set t (.user n) x) := by
  intro s i hi
  rw [Mem.set_ne _ _ _ _ _ _ (fun hh => by cases hh.2)]
  exact h s i hi
theorem OldFrame.trans {φ} {k k1 k' : Nat} {ms ms1 ms2 : Mem φ} (h : OldFrame k k1 ms ms1) (h' : OldFrame k1 k' ms1 ms2) (h1 : k ≤ k1) (h2 : k1 ≤ k') :
    OldFrame k k' ms ms2 := fun t i hi => by rw [h' t i (by omega), h t i (by omega)]

/-- A conversion inserted by the checker. -/
theorem sem_castTo {φ} (F : Fl φ) (t : NT) (c : Op φ) (ms ms1 : Mem φ) (x : Val φ) (h : sem F c ms = .val ms1 x) (hx : HasTy (typeOf c) x) :
    sem F (castTo t c) ms = lift ms1 (conv F (typeOf c) t x).out := by
  unfold castTo
  split
  · rename_i he
    rw [h, ← he, conv_same F hx]; rfl
  · rename_i he
    simp only [sem, h, Sem.next]
    rw [convVal_eq F he]

theorem sem_castTo_die {φ} (F : Fl φ) (t : NT) (c : Op φ) (ms ms1 : Mem φ) (msg) (h : sem F c ms = .die msg ms1) :
    sem F (castTo t c) ms = .die msg ms1 := by
  unfold castTo
  split
  · exact h
  · simp only [sem, h, Sem.next]

theorem sem_castTo_ub {φ} (F : Fl φ) (t : NT) (c : Op φ) (ms : Mem φ) (h : sem F c ms = .ub) : sem F (castTo t c) ms = .ub := by
  unfold castTo
  split
  · exact h
  · simp only [sem, h, Sem.next]

/-- The operands of a binary operator can always be converted. -/
theorem operands {φ} (F : Fl φ) (o : BinOp) (ta tb : NT) (x y : Val φ) (h : Accepts o ta tb) (hx : HasTy ta x) (hy : HasTy tb y) :
    ∃ x' y', conv F ta (leftTy o ta tb) x = .val x' ∧ conv F tb (rightTy o ta tb) y = .val y' ∧
      binVal F o (leftTy o ta tb) x' y' = (binary F o (leftTy o ta tb) x' y').out ∧
      ∀ r, binary F o (leftTy o ta tb) x' y' = .val r → HasTy (resultTy o ta tb) r := by
  have hw := widens_of_accepts o ta tb h
  obtain ⟨x', h1, h2⟩ := conv_widen F hx hw.1
  obtain ⟨y', h3, h4⟩ := conv_widen F hy hw.2
  have hb : o.IsShift = false → rightTy o ta tb = leftTy o ta tb := by
    intro hs
    have := (binTypes_of_accepts o ta tb h).1
    rw [this]; cases o <;> first | rfl | cases hs
  refine ⟨x', y', h1, h3, binVal_eq F o _ _ x' y' h2 h4 hb, fun r hr => ?_⟩
  rw [resultTy_eq]
  exact binary_ty F o _ _ x' y' r h2 h4 hb hr

/-- A checked binary operator whose left operand has been evaluated. -/
theorem sem_bin {φ} (F : Fl φ) (o : BinOp) (n : Bool) (ca cb : Op φ) (ms ms1 ms2 : Mem φ) (x y : Val φ) (h : Accepts o (typeOf ca) (typeOf cb))
    (ha : sem F ca ms = .val ms1 x) (hx : HasTy (typeOf ca) x) (hb : sem F cb ms1 = .val ms2 y) (hy : HasTy (typeOf cb) y)
    (L R : NT) (hL : L = leftTy o (typeOf ca) (typeOf cb)) (hR : R = rightTy o (typeOf ca) (typeOf cb)) :
    ∃ x' y', conv F (typeOf ca) L x = .val x' ∧ conv F (typeOf cb) R y = .val y' ∧
      sem F (.bin o n (castTo L ca) (castTo R cb)) ms = lift ms2 (binary F o L x' y').out ∧
      ∀ r, binary F o L x' y' = .val r → HasTy (resultTy o (typeOf ca) (typeOf cb)) r := by
  subst hL hR
  obtain ⟨x', y', h1, h2, h3, h4⟩ := operands F o (typeOf ca) (typeOf cb) x y h hx hy
  refine ⟨x', y', h1, h2, ?_, h4⟩
  simp only [sem]
  rw [sem_castTo F _ ca ms ms1 x ha hx, h1]
  rw [typeOf_castTo, ← h3]
  simp only [Ans.out, lift, Sem.next]
  rw [sem_castTo F _ cb ms1 ms2 y hb hy, h2]
  simp only [Ans.out, lift]

theorem sem_bin_right {φ} (F : Fl φ) (o : BinOp) (n : Bool) (ca cb : Op φ) (ms ms1 : Mem φ) (x : Val φ) (h : Accepts o (typeOf ca) (typeOf cb))
    (ha : sem F ca ms = .val ms1 x) (hx : HasTy (typeOf ca) x) (L R : NT) (hL : L = leftTy o (typeOf ca) (typeOf cb)) :
    (∀ msg ms2, sem F cb ms1 = .die msg ms2 → sem F (.bin o n (castTo L ca) (castTo R cb)) ms = .die msg ms2) ∧
    (sem F cb ms1 = .ub → sem F (.bin o n (castTo L ca) (castTo R cb)) ms = .ub) := by
  subst hL
  obtain ⟨x', h1, _⟩ := conv_widen F hx (widens_of_accepts o _ _ h).1
  constructor
  · intro msg ms2 hb
    simp only [sem]
    rw [sem_castTo F _ ca ms ms1 x ha hx, h1]
    simp only [Ans.out, lift, Sem.next]
    rw [sem_castTo_die F _ cb ms1 ms2 msg hb]
  · intro hb
    simp only [sem]
    rw [sem_castTo F _ ca ms ms1 x ha hx, h1]
    simp only [Ans.out, lift, Sem.next]
    rw [sem_castTo_ub F _ cb ms1 hb]

def SpMatch {φ} (k k' : Nat) (ms : Mem φ) (v : Var) (s : Store φ) (result : Val φ → Val φ) (r : Sem φ) : Outcome φ → Prop
  | .val s1 x => ∃ ms1 y, r = .val ms1 y ∧ x = result y ∧ Rel s1 ms1 ∧ OldFrame k (k' + 1) ms ms1 ∧ HasTy v.ty y ∧
      TypedStore s1 ∧ ms1 v.ty (.old k') = s v
  | .throws msg s1 => ∃ ms1, r = .die msg ms1 ∧ Rel s1 ms1 ∧ TypedStore s1
  | .undefined => r = .ub

/-- The meaning of `$v OP= src`, with the value of `src`. -/
theorem sem_special {φ} (F : Fl φ) (o : BinOp) (v : Var) (c : Op φ) (k k' : Nat) (hk : k ≤ k') (s : Store φ) (ms : Mem φ) (ev : Outcome φ) (hs : Rel s ms)
    (hts : TypedStore s) (h : Accepts o v.ty (typeOf c)) (result : Val φ → Val φ)
    (hc : ∀ ms, Rel s ms → Match k k' ms (typeOf c) ev (sem F c ms)) :
    SpMatch k k' ms v s result (sem F (specialOp o v c k') ms) (ev.andThen fun s' x => update F o v (s v) (typeOf c) x s' result) := by
  have hms : Rel s (ms.set v.ty (.old k') (s v)) := hs.set_old _ _ _
  have hm := hc _ hms
  have hv : sem F (.var ⟨v.ty, .old k'⟩) (ms.set v.ty (.old k') (s v)) = .val (ms.set v.ty (.old k') (s v)) (s v) := by
    simp only [sem]; rw [Mem.set_same]
  have h1 : ∀ e : Op φ, sem F (.seq (.assign ⟨v.ty, .old k'⟩ (.var (userVar v))) e) ms = sem F e (ms.set v.ty (.old k') (s v)) := by
    intro e
    simp only [sem, Sem.next, userVar]
    rw [hs v]
  unfold specialOp
  rw [h1]
  have hr := sem_bin_right F o true (.var ⟨v.ty, .old k'⟩) c _ _ (s v) h hv (hts v) (leftTy o v.ty (typeOf c)) (rightTy o v.ty (typeOf c)) rfl
  cases ev with
  | undefined =>
    show sem F _ _ = _
    rw [sem, sem_castTo_ub F v.ty _ _ (hr.2 hm)]; rfl
  | throws msg s1 =>
    obtain ⟨ms1, g1, g2, g3⟩ := hm
    refine ⟨ms1, ?_, g2, g3⟩
    rw [sem, sem_castTo_die F v.ty _ _ _ _ (hr.1 _ _ g1)]; rfl
  | val s1 x =>
    obtain ⟨ms1, g1, g2, g3, g4, g5⟩ := hm
    obtain ⟨x', y', c1, c2, c3, c4⟩ := sem_bin F o true (.var ⟨v.ty, .old k'⟩) c _ _ _ (s v) x h hv (hts v) g1 g4
      (leftTy o v.ty (typeOf c)) (rightTy o v.ty (typeOf c)) rfl rfl
    have c1' : conv F v.ty (leftTy o v.ty (typeOf c)) (s v) = .val x' := c1
    simp only [Outcome.andThen, update, c1', c2, Ans.andThen]
    cases hb : binary F o (leftTy o v.ty (typeOf c)) x' y' with
    | undefined =>
      rw [hb] at c3
      show sem F _ _ = _
      rw [sem, sem_castTo_ub F v.ty _ _ c3]; rfl
    | throws msg =>
      rw [hb] at c3
      refine ⟨ms1, ?_, g2, g5⟩
      rw [sem, sem_castTo_die F v.ty _ _ _ _ c3]; rfl
    | val r =>
      rw [hb] at c3
      have hty : typeOf (.bin o true (castTo (leftTy o v.ty (typeOf c)) (.var ⟨v.ty, .old k'⟩)) (castTo (rightTy o v.ty (typeOf c)) c)) = resultTy o v.ty (typeOf c) := by
        rw [typeOf_bin, typeOf_castTo, resultTy_eq]
      have this := sem_castTo F v.ty _ _ _ r c3 (by rw [hty]; exact c4 r hb)
      rw [hty] at this
      dsimp only
      cases hcv : conv F (resultTy o v.ty (typeOf c)) v.ty r with
      | undefined =>
        rw [hcv] at this
        show sem F _ _ = _
        rw [sem, this]; rfl
      | throws msg => exact absurd hcv (conv_not_throws F _ _ _ _)
      | val y =>
        rw [hcv] at this
        refine ⟨ms1.set v.ty (.user v.id) y, y, ?_, rfl, g2.set v y, ?_, conv_ty F hcv, g5.set v y (conv_ty F hcv), ?_⟩
        · rw [sem, this]; rfl
        · intro t i hi
          rw [Mem.set_ne _ _ _ _ _ _ (fun hh => by cases hh.2), g3 t i (by omega), Mem.set_ne]
          rintro ⟨_, h2⟩; injection h2; omega
        · rw [Mem.set_ne _ _ _ _ _ _ (fun hh => by cases hh.2), g3 v.ty k' (.inr (Nat.le_refl _)), Mem.set_same]

theorem one_ty {φ} : HasTy .int (.i 1 : Val φ) := ⟨by decide, by decide⟩

/-- The checked tree has the meaning of the expression. -/
theorem check_correct {φ} (F : Fl φ) (e : Expr φ) : ∀ k c, Literals e → Typed e → check (build e k).1 = .ok c →
    ∀ s ms, Rel s ms → TypedStore s → Match k (build e k).2 ms (ty e) (eval F e s) (sem F c ms) := by
  induction e with
  | var v =>
    intro k c _ _ hc s ms hs hts
    injection hc with hc; subst hc
    refine ⟨ms, ?_, hs, OldFrame.refl _ _ _, hts v, hts⟩
    show Sem.val ms (ms v.ty (.user v.id)) = _
    rw [hs v]
  | lit t c =>
    intro k c' hl _ hc s ms hs hts
    injection hc with hc; subst hc
    refine ⟨ms, rfl, hs, OldFrame.refl _ _ _, ?_, hts⟩
    cases c with
    | i n => refine ⟨?_, hl.2⟩; rcases hl.1 with h | h | h <;> simp only [ty, h] <;> decide
    | f x => show ¬ _; rcases hl with h | h <;> simp only [ty, h] <;> decide
  | cast t e ih =>
    intro k c' hl ht hc s ms hs hts
    obtain ⟨c, h1, h2⟩ := checked e k hl ht
    have : c' = castTo t c := by
      simp only [build, check, h1] at hc; injection hc with hc; exact hc.symm
    subst this
    have g := ih k c hl ht h1 s ms hs hts
    simp only [eval]
    cases he : eval F e s with
    | undefined => rw [he] at g; exact sem_castTo_ub F t c ms g
    | throws msg s1 => rw [he] at g; obtain ⟨ms1, g1, g2⟩ := g; exact ⟨ms1, sem_castTo_die F t c ms ms1 msg g1, g2⟩
    | val s1 x =>
      rw [he] at g
      obtain ⟨ms1, g1, g2, g3, g4, g5⟩ := g
      have h3 := sem_castTo F t c ms ms1 x g1 (by rw [h2.type]; exact g4)
      rw [h2.type] at h3
      simp only [Outcome.andThen]
      cases hv : conv F (ty e) t x with
      | undefined => rw [hv] at h3; exact h3
      | throws msg => exact absurd hv (conv_not_throws F _ _ _ _)
      | val y => rw [hv] at h3; exact ⟨ms1, h3, g2, g3, conv_ty F hv, g5⟩
  | un o e ih =>
    intro k c' hl ht hc s ms hs hts
    obtain ⟨c, h1, h2⟩ := checked e k hl ht.1
    have : c' = .un o (castTo (promote (typeOf c)) c) := by
      simp only [build, check, h1, Out.ok_bind] at hc
      rw [if_neg, promoteOp_eq] at hc
      · injection hc with hc; exact hc.symm
      · rintro ⟨hb, hi⟩
        rw [h2.type] at hi
        exact (isInteger_false _).1 hi (ht.2 hb)
    subst this
    have g := ih k c hl ht.1 h1 s ms hs hts
    simp only [eval, sem]
    cases he : eval F e s with
    | undefined =>
      rw [he] at g
      rw [sem_castTo_ub F _ c ms g]; rfl
    | throws msg s1 =>
      rw [he] at g; obtain ⟨ms1, g1, g2⟩ := g
      exact ⟨ms1, by rw [sem_castTo_die F _ c ms ms1 msg g1]; rfl, g2⟩
    | val s1 x =>
      rw [he] at g
      obtain ⟨ms1, g1, g2, g3, g4, g5⟩ := g
      have h3 := sem_castTo F (promote (typeOf c)) c ms ms1 x g1 (by rw [h2.type]; exact g4)
      obtain ⟨y, hy, hyt⟩ := conv_widen F g4 (promote_widens (ty e))
      rw [h2.type, hy] at h3
      rw [h2.type, h3]
      simp only [Outcome.andThen, hy, Ans.andThen, Ans.out, lift, Sem.next]
      rw [typeOf_castTo]
      have hu : unVal F o (promote (ty e)) y = (unary F o (promote (ty e)) y).out := by
        cases o with
        | plus => cases y <;> rfl
        | minus => exact negVal_eq F _ y
        | bitNot => exact notVal_eq F _ y hyt
      rw [hu]
      cases hr : unary F o (promote (ty e)) y with
      | undefined => rfl
      | throws msg => exact ⟨ms1, rfl, g2, g5⟩
      | val r => exact ⟨ms1, rfl, g2, g3, unary_ty F o _ y r hyt hr, g5⟩
  | bin o a b iha ihb =>
    intro k c' hl ht hc s ms hs hts
    obtain ⟨ca, a1, a2⟩ := checked a k hl.1 ht.1
    obtain ⟨cb, b1, b2⟩ := checked b (build a k).2 hl.2 ht.2.1
    have hacc : Accepts o (typeOf ca) (typeOf cb) := by rw [a2.type, b2.type]; exact ht.2.2
    have : c' = .bin o false (castTo (leftTy o (typeOf ca) (typeOf cb)) ca) (castTo (rightTy o (typeOf ca) (typeOf cb)) cb) := by
      simp only [build, check, a1, b1, Out.ok_bind] at hc
      rw [checkBin_ok o false ca cb hacc] at hc
      injection hc with hc; exact hc.symm
    subst this
    have g := iha k ca hl.1 ht.1 a1 s ms hs hts
    simp only [eval]
    cases he : eval F a s with
    | undefined =>
      rw [he] at g
      show sem F _ ms = _
      simp only [sem]
      rw [sem_castTo_ub F _ ca ms g]; rfl
    | throws msg s1 =>
      rw [he] at g; obtain ⟨ms1, g1, g2⟩ := g
      exact ⟨ms1, by simp only [sem]; rw [sem_castTo_die F _ ca ms ms1 msg g1]; rfl, g2⟩
    | val s1 x =>
      rw [he] at g
      obtain ⟨ms1, g1, g2, g3, g4, g5⟩ := g
      rw [← a2.type] at g4
      have f := ihb (build a k).2 cb hl.2 ht.2.1 b1 s1 ms1 g2 g5
      have hr := sem_bin_right F o false ca cb ms ms1 x hacc g1 g4 _ (rightTy o (typeOf ca) (typeOf cb)) rfl
      simp only [Outcome.andThen]
      cases he' : eval F b s1 with
      | undefined => rw [he'] at f; exact hr.2 f
      | throws msg s2 =>
        rw [he'] at f; obtain ⟨ms2, f1, f2⟩ := f
        exact ⟨ms2, hr.1 msg ms2 f1, f2⟩
      | val s2 y =>
        rw [he'] at f
        obtain ⟨ms2, f1, f2, f3, f4, f5⟩ := f
        rw [← b2.type] at f4
        obtain ⟨x', y', c1, c2, c3, c4⟩ := sem_bin F o false ca cb ms ms1 ms2 x y hacc g1 g4 f1 f4 _ _ rfl rfl
        rw [c3]
        rw [a2.type, b2.type] at c1 c2 c4 ⊢
        simp only [c1, c2, Ans.andThen]
        cases hb : binary F o (leftTy o (ty a) (ty b)) x' y' with
        | undefined => rfl
        | throws msg => exact ⟨ms2, rfl, f2, f5⟩
        | val r => exact ⟨ms2, rfl, f2, g3.trans f3 a2.mono b2.mono, c4 r hb, f5⟩
  | assign v e ih =>
    intro k c' hl ht hc s ms hs hts
    obtain ⟨c, h1, h2⟩ := checked e k hl ht.1
    have hca := checkAssign_ok v.ty c h2.narrow h2.okLit (by rw [h2.type, h2.lit]; exact ht.2)
    have : c' = .assign (userVar v) (castTo v.ty c) := by
      simp only [build, check, h1, Out.ok_bind] at hc
      change (checkAssign v.ty c >>= _) = _ at hc
      rw [hca] at hc
      injection hc with hc; exact hc.symm
    subst this
    have g := ih k c hl ht.1 h1 s ms hs hts
    simp only [eval, sem]
    cases he : eval F e s with
    | undefined =>
      rw [he] at g
      rw [sem_castTo_ub F _ c ms g]; rfl
    | throws msg s1 =>
      rw [he] at g; obtain ⟨ms1, g1, g2⟩ := g
      exact ⟨ms1, by rw [sem_castTo_die F _ c ms ms1 msg g1]; rfl, g2⟩
    | val s1 x =>
      rw [he] at g
      obtain ⟨ms1, g1, g2, g3, g4, g5⟩ := g
      have h3 := sem_castTo F v.ty c ms ms1 x g1 (by rw [h2.type]; exact g4)
      rw [h2.type] at h3
      rw [h3]
      simp only [Outcome.andThen]
      cases hv : conv F (ty e) v.ty x with
      | undefined => rfl
      | throws msg => exact absurd hv (conv_not_throws F _ _ _ _)
      | val y => exact ⟨_, rfl, g2.set v y, g3.set _ _ _, conv_ty F hv, g5.set v y (conv_ty F hv)⟩
  | special o v e ih =>
    intro k c' hl ht hc s ms hs hts
    obtain ⟨c, h1, h2⟩ := checked e k hl ht.1
    have hacc : Accepts o.bin v.ty (typeOf c) := by rw [h2.type]; exact ht.2
    have : c' = specialOp o.bin v c (build e k).2 := by
      have := check_special o.bin v _ c (build e k).2 h1 hacc
      simp only [build] at hc
      rw [this] at hc
      injection hc with hc; exact hc.symm
    subst this
    have g := sem_special F o.bin v c k (build e k).2 h2.mono s ms (eval F e s) hs hts hacc id
      (fun ms hs => by rw [h2.type]; exact ih k c hl ht.1 h1 s ms hs hts)
    rw [h2.type] at g
    simp only [eval]
    cases hev : (eval F e s).andThen fun s' x => update F o.bin v (s v) (ty e) x s' id with
    | undefined => rw [hev] at g; exact g
    | throws msg s1 => rw [hev] at g; exact g
    | val s1 x =>
      rw [hev] at g
      obtain ⟨ms1, y, g1, g2, g3, g4, g5, g6, _⟩ := g
      simp only [id] at g2; subst g2
      exact ⟨ms1, g1, g3, g4, g5, g6⟩
  | pre up v =>
    intro k c' hl ht hc s ms hs hts
    have hacc := accepts_inc up v.ty
    have : c' = specialOp (if up then .add else .sub) v (.const .int (.i 1)) k := by
      have := check_special (if up then .add else .sub) v (.const .int (.i 1)) (.const .int (.i 1) : Op φ) k rfl hacc
      simp only [build] at hc
      rw [this] at hc
      injection hc with hc; exact hc.symm
    subst this
    have g := sem_special F (if up then .add else .sub) v (.const .int (.i 1)) k k (Nat.le_refl _) s ms (.val s (.i 1)) hs hts hacc id
      (fun ms hs => ⟨ms, rfl, hs, OldFrame.refl _ _ _, one_ty, hts⟩)
    change SpMatch k k ms v s id _ (update F (if up = true then .add else .sub) v (s v) .int (.i 1) s id) at g
    simp only [eval]
    cases hev : update F (if up = true then .add else .sub) v (s v) .int (.i 1) s id with
    | undefined => rw [hev] at g; exact g
    | throws msg s1 => rw [hev] at g; exact g
    | val s1 x =>
      rw [hev] at g
      obtain ⟨ms1, y, g1, g2, g3, g4, g5, g6, _⟩ := g
      simp only [id] at g2; subst g2
      exact ⟨ms1, g1, g3, g4, g5, g6⟩
  | post up v =>
    intro k c' hl ht hc s ms hs hts
    have hacc := accepts_inc up v.ty
    have : c' = .seq (specialOp (if up then .add else .sub) v (.const .int (.i 1)) k) (.var ⟨v.ty, .old k⟩) := by
      have := check_special (if up then .add else .sub) v (.const .int (.i 1)) (.const .int (.i 1) : Op φ) k rfl hacc
      simp only [build, check] at hc
      rw [this] at hc
      injection hc with hc; exact hc.symm
    subst this
    have g := sem_special F (if up then .add else .sub) v (.const .int (.i 1)) k k (Nat.le_refl _) s ms (.val s (.i 1)) hs hts hacc (fun _ => s v)
      (fun ms hs => ⟨ms, rfl, hs, OldFrame.refl _ _ _, one_ty, hts⟩)
    change SpMatch k k ms v s (fun _ => s v) _ (update F (if up = true then .add else .sub) v (s v) .int (.i 1) s (fun _ => s v)) at g
    simp only [eval, sem]
    cases hev : update F (if up = true then .add else .sub) v (s v) .int (.i 1) s (fun _ => s v) with
    | undefined => rw [hev] at g; show Sem.next _ _ = _; rw [g]; rfl
    | throws msg s1 => rw [hev] at g; obtain ⟨ms1, g1, g2⟩ := g; exact ⟨ms1, by rw [g1]; rfl, g2⟩
    | val s1 x =>
      rw [hev] at g
      obtain ⟨ms1, y, g1, g2, g3, g4, g5, g6, g7⟩ := g
      subst g2
      exact ⟨ms1, by rw [g1]; simp only [Sem.next]; rw [g7], g3, g4, hts v, g6⟩
  | seq a b iha ihb =>
    intro k c' hl ht hc s ms hs hts
    obtain ⟨ca, a1, a2⟩ := checked a k hl.1 ht.1
    obtain ⟨cb, b1, b2⟩ := checked b (build a k).2 hl.2 ht.2
    have : c' = .seq ca cb := by
      simp only [build, check, a1, b1, Out.ok_bind] at hc
      injection hc with hc; exact hc.symm
    subst this
    have g := iha k ca hl.1 ht.1 a1 s ms hs hts
    simp only [eval, sem]
    cases he : eval F a s with
    | undefined => rw [he] at g; show Sem.next _ _ = _; rw [g]; rfl
    | throws msg s1 => rw [he] at g; obtain ⟨ms1, g1, g2⟩ := g; exact ⟨ms1, by rw [g1]; rfl, g2⟩
    | val s1 x =>
      rw [he] at g
      obtain ⟨ms1, g1, g2, g3, g4, g5⟩ := g
      have f := ihb (build a k).2 cb hl.2 ht.2 b1 s1 ms1 g2 g5
      rw [g1]
      simp only [Outcome.andThen, Sem.next]
      cases he' : eval F b s1 with
      | undefined => rw [he'] at f; exact f
      | throws msg s2 => rw [he'] at f; exact f
      | val s2 y =>
        rw [he'] at f
        obtain ⟨ms2, f1, f2, f3, f4, f5⟩ := f
        exact ⟨ms2, f1, f2, g3.trans f3 a2.mono b2.mono, f4, f5⟩

end Expr
end SPVM
