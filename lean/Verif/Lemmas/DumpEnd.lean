import Verif.Lemmas.DumpRec
/-!
# Lemmas about `dump`: texts have pictures, and when it ends
-/
namespace SPVM
namespace Dump
open VM (Bytes)
open Spec.Dump (Tree Shown Depicts visits visitsL visitsF FirstInFull indent sep decimal number numberLines pretty lines fieldLines target
  arrayType hex2 text)

/-! ## From texts to pictures -/

def pairs (pre : α → Bytes) : List α → List Tree → List (Bytes × Tree)
  | x :: xs, t :: ts => (pre x, t) :: pairs pre xs ts
  | _, _ => []

theorem loop_sound (p : Nat → Bytes) (d : Nat) (f : α → St → Out St) (pre : α → Bytes) (R : α → Tree → Prop) : ∀ (xs : List α),
    (∀ x ∈ xs, ∀ s st st', f x st = .ok st' → SeenBy p st s → ∃ t, R x t ∧ Once s (visits t) ∧ Good p d s st st' (pre x) t) →
    ∀ s st st', loop f d xs st = .ok st' → SeenBy p st s →
      ∃ ts, ts.length = xs.length ∧ (∀ (i : Nat) x t, xs[i]? = some x → ts[i]? = some t → R x t) ∧ Once s (gvisits (pairs pre xs ts)) ∧
        st'.buf = st.buf ++ glines p d (pairs pre xs ts) ∧ SeenBy p st' (after s (gvisits (pairs pre xs ts))) := by
  intro xs
  induction xs with
  | nil =>
    intro _ s st st' h hs
    cases h
    exact ⟨[], rfl, fun i x t h => by simp at h, trivial, by simp [pairs, glines], hs⟩
  | cons x xs ih =>
    intro hstep s st st' h hs
    rw [loop] at h
    cases h1 : f x (st.add (pad d)) with
    | die m => rw [h1] at h; cases h
    | ub => rw [h1] at h; cases h
    | ok st1 =>
      rw [h1] at h
      obtain ⟨t, hR, ho, hb, hs1⟩ := hstep x (by simp) s _ st1 h1 hs
      obtain ⟨ts, hl, hall, ho2, hb2, hs2⟩ := ih (fun y hy => hstep y (List.mem_cons_of_mem _ hy)) (after s (visits t)) _ st' h hs1
      refine ⟨t :: ts, by simp [hl], ?_, ?_, ?_, ?_⟩
      · intro i y u hy hu
        cases i with
        | zero => simp only [List.getElem?_cons_zero, Option.some.injEq] at hy hu; subst hy hu; exact hR
        | succ i => exact hall i y u (by simpa using hy) (by simpa using hu)
      · simp only [pairs, gvisits, once_append]
        exact ⟨ho, ho2⟩
      · have hlen : xs.isEmpty = (pairs pre xs ts).isEmpty := by
          cases xs with
          | nil => rfl
          | cons y ys =>
            cases ts with
            | nil => simp at hl
            | cons u us => rfl
        rw [hb2, St.add, sep_eq]
        simp only [hb, St.add, pairs, glines, pad_eq, hlen, List.append_assoc]
      · simp only [pairs, gvisits, after_append]
        exact hs2

theorem pairs_nil_eq (xs : List α) (ts : List Tree) (h : ts.length = xs.length) :
    pairs (fun _ => []) xs ts = ts.map (fun t => (([] : Bytes), t)) := by
  induction xs generalizing ts with
  | nil =>
    cases ts with
    | nil => rfl
    | cons t ts => simp at h
  | cons x xs ih =>
    cases ts with
    | nil => simp at h
    | cons t ts => simp only [pairs, List.map_cons]; rw [ih ts (by simpa using h)]

theorem trees_eq_map (f : α → Tree) (xs : List α) (ts : List Tree) (hl : ts.length = xs.length)
    (h : ∀ (i : Nat) x t, xs[i]? = some x → ts[i]? = some t → t = f x) : ts = xs.map f := by
  apply List.ext_getElem?
  intro i
  rw [List.getElem?_map]
  cases hx : xs[i]? with
  | none =>
    rw [List.getElem?_eq_none_iff] at hx
    rw [List.getElem?_eq_none (by omega)]
    rfl
  | some x =>
    obtain ⟨hi, _⟩ := List.getElem?_eq_some_iff.1 hx
    have ht : ts[i]? = some ts[i] := List.getElem?_eq_getElem (by omega)
    rw [ht, h i x _ hx ht]
    rfl

/-- The named fields of an object with their pictures. -/
def named : List (Bytes × FVal) → List Tree → List (Bytes × Tree)
  | f :: fs, t :: ts => (f.1, t) :: named fs ts
  | _, _ => []

theorem named_pairs (fs : List (Bytes × FVal)) (ts : List Tree) :
    pairs (fun f => f.1 ++ text " => ") fs ts = (named fs ts).map (fun f => (f.1 ++ text " => ", f.2)) := by
  induction fs generalizing ts with
  | nil => rfl
  | cons f fs ih =>
    cases ts with
    | nil => rfl
    | cons t ts => simp only [pairs, named, List.map_cons, ih]

theorem named_names (fs : List (Bytes × FVal)) (ts : List Tree) (h : ts.length = fs.length) : (named fs ts).map (·.1) = fs.map (·.1) := by
  induction fs generalizing ts with
  | nil => rfl
  | cons f fs ih =>
    cases ts with
    | nil => simp at h
    | cons t ts => simp only [named, List.map_cons]; rw [ih ts (by simpa using h)]

theorem named_get (fs : List (Bytes × FVal)) (ts : List Tree) (i : Nat) (n : Bytes) (t : Tree) (h : (named fs ts)[i]? = some (n, t)) :
    ts[i]? = some t := by
  induction fs generalizing ts i with
  | nil => simp [named] at h
  | cons f fs ih =>
    cases ts with
    | nil => simp [named] at h
    | cons u ts =>
      cases i with
      | zero => simp only [named, List.getElem?_cons_zero, Option.some.injEq, Prod.mk.injEq] at h ⊢; exact h.2
      | succ i => exact ih ts i (by simpa [named] using h)

theorem showMul_det (p : Nat → Bytes) (d : Nat) (fs : List (Bytes × Num)) (s st st') (h : showMul d fs st = .ok st') (hs : SeenBy p st s) :
    Good p (d + 1) s st st' [] (.tuple fs) := by
  obtain ⟨st1, h1, hb, hse⟩ := showMul_complete p d fs st
  rw [h] at h1
  cases h1
  refine ⟨hb, ?_⟩
  simp only [visits, after_nil]
  unfold SeenBy
  rw [hse]
  exact hs

theorem sound (p : Nat → Bytes) (hp : ∀ a b, p a = p b → a = b) (H : Heap) (hev : ∀ a, (H a).isSome = true → a % 2 = 0) :
    ∀ k a d s st st', dumpRec p H k a d st = .ok st' → SeenBy p st s → ∃ t, Depicts H a t ∧ Once s (visits t) ∧ Good p d s st st' [] t := by
  intro k
  induction k with
  | zero => intro a d s st st' h; cases h
  | succ k ih =>
    intro a d s st st' h hs
    rw [dumpRec] at h
    by_cases ha : a = 0
    · subst ha
      rw [if_pos rfl] at h
      cases h
      refine ⟨.undef, .undef, trivial, ?_, ?_⟩
      · simp only [St.add, pretty, List.append_nil]; rfl
      · simp only [visits, after_nil]; exact hs
    rw [if_neg ha] at h
    cases hH : H a with
    | none => rw [hH] at h; cases h
    | some o =>
      rw [hH] at h
      cases o with
      | str s' =>
        obtain ⟨e, he⟩ := shown_total _ s' (Nat.le_refl _)
        have := strLoop_shown he [] (s'.length + 1) (st.buf ++ [34]) (by omega)
        simp only [List.nil_append, List.length_nil] at this
        simp only [this, Out.ok_bind, Out.pure_eq] at h
        cases h
        refine ⟨.str e, .str ha hH he, trivial, ?_, ?_⟩
        · have h : text "\"" = [34] := by decide +kernel
          simp only [pretty, h, List.append_nil, List.append_assoc]
        · simp only [visits, after_nil]; exact hs
      | nums elem els =>
        simp only at h
        cases hl : loop (fun n st => .ok (st.add (showNum n))) (d + 1) els (st.add (lit "[\n")) with
        | die m => rw [hl] at h; cases h
        | ub => rw [hl] at h; cases h
        | ok st1 =>
          rw [hl] at h
          cases h
          obtain ⟨ts, hlen, hall, ho, hb, hs'⟩ := loop_sound p (d + 1) _ (fun _ => []) (fun n t => t = .num n) els (by
            intro x _ s st st' h hs
            cases h
            exact ⟨_, rfl, trivial, by simp only [St.add, pretty, showNum_eq, List.append_nil], by simp only [visits, after_nil]; exact hs⟩)
            s _ st1 hl (hs.add _)
          rw [pairs_nil_eq _ _ hlen] at ho hb hs'
          have hts := trees_eq_map Tree.num els ts hlen hall
          subst hts
          refine ⟨_, .nums ha hH, by simp only [visits, visitsL_eq]; exact ho, ?_, by simp only [visits, visitsL_eq]; exact hs'⟩
          rw [arrEnd_buf, hb]
          simp only [St.add, pretty, lines_eq, List.append_nil, List.append_assoc]
          rfl
      | muls elem els =>
        simp only at h
        cases hl : loop (showMul d) (d + 1) els (st.add (lit "[\n")) with
        | die m => rw [hl] at h; cases h
        | ub => rw [hl] at h; cases h
        | ok st1 =>
          rw [hl] at h
          cases h
          obtain ⟨ts, hlen, hall, ho, hb, hs'⟩ := loop_sound p (d + 1) _ (fun _ => []) (fun n t => t = .tuple n) els (by
            intro x _ s st st' h hs
            exact ⟨_, rfl, trivial, showMul_det p d x s st st' h hs⟩)
            s _ st1 hl (hs.add _)
          rw [pairs_nil_eq _ _ hlen] at ho hb hs'
          have hts := trees_eq_map Tree.tuple els ts hlen hall
          subst hts
          refine ⟨_, .muls ha hH, by simp only [visits, visitsL_eq]; exact ho, ?_, by simp only [visits, visitsL_eq]; exact hs'⟩
          rw [arrEnd_buf, hb]
          simp only [St.add, pretty, lines_eq, List.append_nil, List.append_assoc]
          rfl
      | objs elem dim els =>
        simp only at h
        cases hl : loop (fun w st => dumpRec p H k (noWeaken w) (d + 1) st) (d + 1) els (st.add (lit "[\n")) with
        | die m => rw [hl] at h; cases h
        | ub => rw [hl] at h; cases h
        | ok st1 =>
          rw [hl] at h
          cases h
          obtain ⟨ts, hlen, hall, ho, hb, hs'⟩ := loop_sound p (d + 1) _ (fun _ => []) (fun w t => Depicts H (target w) t) els (by
            intro x _ s st st' h hs
            rw [noWeaken_eq] at h
            exact ih _ _ s st st' h hs)
            s _ st1 hl (hs.add _)
          rw [pairs_nil_eq _ _ hlen] at ho hb hs'
          refine ⟨_, .objs ha hH hlen hall, by simp only [visits, visitsL_eq]; exact ho, ?_, by simp only [visits, visitsL_eq]; exact hs'⟩
          rw [arrEnd_buf, hb]
          simp only [St.add, pretty, lines_eq, List.append_nil, List.append_assoc]
          rfl
      | inst cls fields =>
        simp only [even_noWeaken hev hH] at h
        by_cases hc : st.seen.contains (p a) = true
        · rw [if_pos hc] at h
          cases h
          have hmem := (hs a).1 hc
          refine ⟨.reuse a, .reuse ha hH, ?_, ?_, ?_⟩
          · simp only [visits, Once, Bool.false_eq_true, false_iff, Classical.not_not, and_true]; exact hmem
          · simp only [St.add, pretty, List.append_nil]; rfl
          · intro b
            simp only [visits, after_cons, after_nil, List.mem_cons]
            rw [show (st.add _).seen = st.seen from rfl, hs b]
            constructor
            · exact .inr
            · rintro (rfl | h)
              · exact hmem
              · exact h
        · rw [if_neg hc] at h
          have hseen : SeenBy p (((({ st with seen := p a :: st.seen } : St).add cls).add (lit " (" ++ p a ++ lit ") ")).add (lit "{\n")) (a :: s) := by
            intro b
            simp only [St.add, List.contains_cons, Bool.or_eq_true, hs b, List.mem_cons]
            constructor
            · rintro (h | h)
              · exact .inl (hp _ _ (by simpa using h))
              · exact .inr h
            · rintro (rfl | h)
              · exact .inl (by simp)
              · exact .inr h
          cases hl : loop (showField (fun a st => dumpRec p H k a (d + 1) st)) (d + 1) fields
              (((({ st with seen := p a :: st.seen } : St).add cls).add (lit " (" ++ p a ++ lit ") ")).add (lit "{\n")) with
          | die m => rw [hl] at h; cases h
          | ub => rw [hl] at h; cases h
          | ok st1 =>
            rw [hl] at h
            cases h
            obtain ⟨ts, hlen, hall, ho, hb, hs'⟩ := loop_sound p (d + 1) _ (fun (f : Bytes × FVal) => f.1 ++ text " => ")
              (fun f t => (∀ n, f.2 = .num n → t = .num n) ∧ (∀ w, f.2 = .ref w → Depicts H (target w) t)) fields (by
              intro x _ s st st' h hs
              obtain ⟨nm, v⟩ := x
              cases v with
              | num n =>
                cases h
                refine ⟨.num n, ⟨fun _ h => (by cases h; rfl), fun _ h => (by cases h)⟩, trivial, ?_, by simp only [visits, after_nil]; exact hs⟩
                simp only [St.add, pretty, showNum_eq, List.append_assoc]
                rfl
              | ref w =>
                simp only [showField, noWeaken_eq] at h
                obtain ⟨t, h1, h2, h3, h4⟩ := ih _ _ s _ st' h hs
                refine ⟨t, ⟨fun _ h => (by cases h), fun _ h => (by cases h; exact h1)⟩, h2, ?_, h4⟩
                rw [h3]
                simp only [St.add, List.append_nil, List.append_assoc]
                rfl)
              (a :: s) _ st1 hl hseen
            rw [named_pairs] at ho hb hs'
            refine ⟨.obj a cls (named fields ts), .obj ha hH (named_names _ _ hlen) ?_ ?_, ?_, ?_, ?_⟩
            · intro i name n t hf ht
              exact (hall i _ t hf (named_get _ _ _ _ _ ht)).1 n rfl
            · intro i name w t hf ht
              exact (hall i _ t hf (named_get _ _ _ _ _ ht)).2 w rfl
            · simp only [visits, visitsF_eq, Once]
              exact ⟨⟨fun _ hm => hc ((hs a).2 hm), fun _ => trivial⟩, ho⟩
            · have := inst_text cls (p a)
              simp only [St.add, hb, pretty, pad_eq, fieldLines_eq, List.append_nil]
              rw [List.append_assoc st.buf, List.append_assoc st.buf, this]
              simp only [List.append_assoc]
              rfl
            · simp only [visits, visitsF_eq, after_cons]
              exact hs'

/-! ## Ends or not -/

theorem loop_no_die (f : α → St → Out St) (d : Nat) (xs : List α) (hf : ∀ x ∈ xs, ∀ st m, f x st ≠ .die m) :
    ∀ st m, loop f d xs st ≠ .die m := by
  induction xs with
  | nil => intro st m h; cases h
  | cons x xs ih =>
    intro st m h
    rw [loop] at h
    cases h1 : f x (st.add (pad d)) with
    | die m' => exact hf x (by simp) _ _ h1
    | ub => rw [h1] at h; cases h
    | ok st1 =>
      rw [h1] at h
      exact ih (fun y hy => hf y (List.mem_cons_of_mem _ hy)) _ _ h

theorem dumpRec_no_die (p : Nat → Bytes) (H : Heap) : ∀ k a d st m, dumpRec p H k a d st ≠ .die m := by
  intro k
  induction k with
  | zero => intro a d st m h; cases h
  | succ k ih =>
    intro a d st m h
    rw [dumpRec] at h
    by_cases ha : a = 0
    · rw [if_pos ha] at h; cases h
    rw [if_neg ha] at h
    cases hH : H a with
    | none => rw [hH] at h; cases h
    | some o =>
      rw [hH] at h
      cases o with
      | str s' =>
        obtain ⟨e, he⟩ := shown_total _ s' (Nat.le_refl _)
        have := strLoop_shown he [] (s'.length + 1) (st.buf ++ [34]) (by omega)
        simp only [List.nil_append, List.length_nil] at this
        simp only [this, Out.ok_bind, Out.pure_eq] at h
        cases h
      | nums elem els =>
        simp only at h
        have hl := loop_no_die (fun n st => .ok (st.add (showNum n))) (d + 1) els (by intro x _ st m h; cases h) (st.add (lit "[\n"))
        cases hx : loop (fun n st => .ok (st.add (showNum n))) (d + 1) els (st.add (lit "[\n")) with
        | die m => exact hl m hx
        | ub => rw [hx] at h; cases h
        | ok st1 => rw [hx] at h; cases h
      | muls elem els =>
        simp only at h
        have hl := loop_no_die (showMul d) (d + 1) els (by
          intro x _ st m h
          obtain ⟨st', h', _⟩ := showMul_complete p d x st
          rw [h'] at h; cases h) (st.add (lit "[\n"))
        cases hx : loop (showMul d) (d + 1) els (st.add (lit "[\n")) with
        | die m => exact hl m hx
        | ub => rw [hx] at h; cases h
        | ok st1 => rw [hx] at h; cases h
      | objs elem dim els =>
        simp only at h
        have hl := loop_no_die (fun w st => dumpRec p H k (noWeaken w) (d + 1) st) (d + 1) els (fun x _ st m => ih _ _ _ _) (st.add (lit "[\n"))
        cases hx : loop (fun w st => dumpRec p H k (noWeaken w) (d + 1) st) (d + 1) els (st.add (lit "[\n")) with
        | die m => exact hl m hx
        | ub => rw [hx] at h; cases h
        | ok st1 => rw [hx] at h; cases h
      | inst cls fields =>
        simp only at h
        split at h
        · cases h
        · rename_i hc
          have hl := loop_no_die (showField (fun a st => dumpRec p H k a (d + 1) st)) (d + 1) fields (by
            intro x _ st m h
            obtain ⟨nm, v⟩ := x
            cases v with
            | num n => cases h
            | ref w => exact ih _ _ _ _ h)
          cases hx : loop (showField (fun a st => dumpRec p H k a (d + 1) st)) (d + 1) fields
              (((({ st with seen := p (noWeaken a) :: st.seen } : St).add cls).add (lit " (" ++ p a ++ lit ") ")).add (lit "{\n")) with
          | die m => exact hl _ m hx
          | ub => rw [hx] at h; cases h
          | ok st1 => rw [hx] at h; cases h

theorem loop_ub (f : α → St → Out St) (d : Nat) (xs : List α) (hf : ∀ x ∈ xs, ∀ st m, f x st ≠ .die m) (x : α) (hx : x ∈ xs)
    (hub : ∀ st, f x st = .ub) : ∀ st, loop f d xs st = .ub := by
  induction xs with
  | nil => cases hx
  | cons y ys ih =>
    intro st
    rw [loop]
    rcases List.mem_cons.1 hx with rfl | hx
    · rw [hub]; rfl
    · cases h1 : f y (st.add (pad d)) with
      | die m' => exact absurd h1 (hf y (by simp) _ _)
      | ub => rfl
      | ok st1 => exact ih (fun y hy => hf y (List.mem_cons_of_mem _ hy)) hx _

/-- Arrays that contain one another in a circle are shown without end. -/
theorem cycle_ub (p : Nat → Bytes) (H : Heap) (P : Nat → Prop)
    (hP : ∀ a, P a → a ≠ 0 ∧ ∃ elem dim els w, H a = some (.objs elem dim els) ∧ w ∈ els ∧ P (noWeaken w)) :
    ∀ k a d st, P a → dumpRec p H k a d st = .ub := by
  intro k
  induction k with
  | zero => intro a d st _; rfl
  | succ k ih =>
    intro a d st ha
    obtain ⟨h0, elem, dim, els, w, hH, hw, hPw⟩ := hP a ha
    rw [dumpRec, if_neg h0, hH]
    simp only
    rw [loop_ub (fun w st => dumpRec p H k (noWeaken w) (d + 1) st) (d + 1) els (fun x _ st m => dumpRec_no_die p H k _ _ _ _) w hw
      (fun st => ih _ _ _ hPw)]
    rfl

/-- The references in an object. -/
def refs : Obj → List Nat
  | .objs _ _ els => els
  | .inst _ fields => fields.filterMap (fun f => match f.2 with | .ref w => some w | .num _ => none)
  | _ => []

theorem loop_ends (f : Nat → α → St → Out St) (d : Nat) (Inv : St → Prop) (hadd : ∀ st b, Inv st → Inv (st.add b)) : ∀ (xs : List α),
    (∀ x ∈ xs, ∀ st, Inv st → ∃ k st', (∀ k', k ≤ k' → f k' x st = .ok st') ∧ Inv st') →
    ∀ st, Inv st → ∃ k st', (∀ k', k ≤ k' → loop (f k') d xs st = .ok st') ∧ Inv st' := by
  intro xs
  induction xs with
  | nil => intro _ st h; exact ⟨0, st, fun _ _ => rfl, h⟩
  | cons x xs ih =>
    intro hstep st h
    obtain ⟨k1, st1, h1, hi1⟩ := hstep x (by simp) (st.add (pad d)) (hadd _ _ h)
    obtain ⟨k2, st2, h2, hi2⟩ := ih (fun y hy => hstep y (List.mem_cons_of_mem _ hy)) (st1.add (if xs.isEmpty then lit "\n" else lit ",\n"))
      (hadd _ _ hi1)
    refine ⟨k1 + k2, st2, fun k' hk => ?_, hi2⟩
    rw [loop, h1 k' (by omega)]
    exact h2 k' (by omega)

/-- How many of the objects are not yet in the table. -/
def unseen (p : Nat → Bytes) (objs : List Nat) (seen : List Bytes) : Nat := (objs.filter (fun a => !seen.contains (p a))).length

theorem unseen_cons (p : Nat → Bytes) (seen : List Bytes) (x : Bytes) : ∀ objs : List Nat,
    unseen p objs (x :: seen) ≤ unseen p objs seen ∧
    (∀ a ∈ objs, p a = x → seen.contains x = false → unseen p objs (x :: seen) < unseen p objs seen) := by
  intro objs
  induction objs with
  | nil => exact ⟨Nat.le_refl _, fun a h => by cases h⟩
  | cons b objs ih =>
    obtain ⟨ih1, ih2⟩ := ih
    unfold unseen at *
    simp only [List.filter_cons, List.contains_cons, Bool.not_or]
    by_cases hb : seen.contains (p b) = true
    · have h1 : (!seen.contains (p b)) = false := by rw [hb]; rfl
      simp only [h1, Bool.and_false, Bool.false_eq_true, if_false]
      refine ⟨by simpa only [List.contains_cons, Bool.not_or] using ih1, fun a ha hpa hx => ?_⟩
      rcases List.mem_cons.1 ha with rfl | ha
      · rw [hpa, hx] at hb; cases hb
      · simpa only [List.contains_cons, Bool.not_or] using ih2 a ha hpa hx
    · have h1 : (!seen.contains (p b)) = true := by simpa using hb
      simp only [h1, Bool.and_true, if_true]
      simp only [List.contains_cons, Bool.not_or] at ih1 ih2
      by_cases hbx : (p b == x) = true
      · simp only [hbx, Bool.not_true, Bool.false_eq_true, if_false, List.length_cons]
        exact ⟨by omega, fun _ _ _ _ => by omega⟩
      · have h2 : (!(p b == x)) = true := by simpa using hbx
        simp only [h2, if_true, List.length_cons]
        refine ⟨by omega, fun a ha hpa hx => ?_⟩
        rcases List.mem_cons.1 ha with rfl | ha
        · rw [hpa] at hbx; simp at hbx
        · have := ih2 a ha hpa hx
          omega

/-- Is it an object array? -/
def isArr (H : Heap) (a : Nat) : Bool := match H a with | some (.objs ..) => true | _ => false

theorem ends (p : Nat → Bytes) (H : Heap) (hev : ∀ a, (H a).isSome = true → a % 2 = 0)
    (hclosed : ∀ a o, H a = some o → ∀ w ∈ refs o, noWeaken w = 0 ∨ (H (noWeaken w)).isSome = true)
    (objs : List Nat) (hfin : ∀ a cls fields, H a = some (.inst cls fields) → a ∈ objs)
    (rank : Nat → Nat) (hrank : ∀ a elem dim els, H a = some (.objs elem dim els) → ∀ w ∈ els, isArr H (noWeaken w) = true → rank (noWeaken w) < rank a) :
    ∀ n r a d st, unseen p objs st.seen ≤ n → (isArr H a = true → rank a < r) → (a = 0 ∨ (H a).isSome = true) →
      ∃ k st', (∀ k', k ≤ k' → dumpRec p H k' a d st = .ok st') ∧ unseen p objs st'.seen ≤ unseen p objs st.seen := by
  intro n
  induction n using Nat.strongRecOn with
  | ind n ihn =>
  intro r
  induction r using Nat.strongRecOn with
  | ind r ihr =>
  intro a d st hu hr ha
  by_cases h0 : a = 0
  · subst h0
    refine ⟨1, st.add (lit "undef"), fun k' hk => ?_, Nat.le_refl _⟩
    obtain ⟨k, rfl⟩ : ∃ k, k' = k + 1 := ⟨k' - 1, by omega⟩
    rw [dumpRec, if_pos rfl]
  cases hH : H a with
  | none => rw [hH] at ha; simp [h0] at ha
  | some o =>
    cases o with
    | str s' =>
      obtain ⟨e, he⟩ := shown_total _ s' (Nat.le_refl _)
      have := strLoop_shown he [] (s'.length + 1) (st.buf ++ [34]) (by omega)
      simp only [List.nil_append, List.length_nil] at this
      refine ⟨1, { st with buf := (st.buf ++ [34] ++ e) ++ [34] }, fun k' hk => ?_, Nat.le_refl _⟩
      obtain ⟨k, rfl⟩ : ∃ k, k' = k + 1 := ⟨k' - 1, by omega⟩
      rw [dumpRec, if_neg h0, hH]
      simp only [this, Out.ok_bind, Out.pure_eq]
    | nums elem els =>
      obtain ⟨k, st', h1, hi⟩ := loop_ends (fun _ n st => .ok (st.add (showNum n))) (d + 1)
        (fun st' => unseen p objs st'.seen ≤ unseen p objs st.seen) (fun _ _ h => h) els
        (fun x _ st h => ⟨0, _, fun _ _ => rfl, h⟩) (st.add (lit "[\n")) (Nat.le_refl _)
      refine ⟨k + 1, arrEnd p d elem 1 a st', fun k' hk => ?_, hi⟩
      obtain ⟨j, rfl⟩ : ∃ j, k' = j + 1 := ⟨k' - 1, by omega⟩
      rw [dumpRec, if_neg h0, hH]
      simp only [h1 j (by omega), Out.ok_bind, Out.pure_eq]
    | muls elem els =>
      obtain ⟨k, st', h1, hi⟩ := loop_ends (fun _ => showMul d) (d + 1)
        (fun st' => unseen p objs st'.seen ≤ unseen p objs st.seen) (fun _ _ h => h) els
        (fun x _ st h => by
          obtain ⟨st', h1, _, h2⟩ := showMul_complete p d x st
          exact ⟨0, st', fun _ _ => h1, by rw [h2]; exact h⟩) (st.add (lit "[\n")) (Nat.le_refl _)
      refine ⟨k + 1, arrEnd p d elem 1 a st', fun k' hk => ?_, hi⟩
      obtain ⟨j, rfl⟩ : ∃ j, k' = j + 1 := ⟨k' - 1, by omega⟩
      rw [dumpRec, if_neg h0, hH]
      simp only [h1 j (by omega), Out.ok_bind, Out.pure_eq]
    | objs elem dim els =>
      have hra := hr (by simp only [isArr, hH])
      obtain ⟨k, st', h1, hi⟩ := loop_ends (fun k w st => dumpRec p H k (noWeaken w) (d + 1) st) (d + 1)
        (fun st' => unseen p objs st'.seen ≤ unseen p objs st.seen) (fun _ _ h => h) els
        (fun w hw st1 h => by
          obtain ⟨k, st', h1, h2⟩ := ihr (rank a) hra (noWeaken w) (d + 1) st1 (Nat.le_trans h hu)
            (fun hw' => hrank a elem dim els hH w hw hw') (hclosed a _ hH w hw)
          exact ⟨k, st', h1, Nat.le_trans h2 h⟩) (st.add (lit "[\n")) (Nat.le_refl _)
      refine ⟨k + 1, arrEnd p d elem dim a st', fun k' hk => ?_, hi⟩
      obtain ⟨j, rfl⟩ : ∃ j, k' = j + 1 := ⟨k' - 1, by omega⟩
      rw [dumpRec, if_neg h0, hH]
      simp only [h1 j (by omega), Out.ok_bind, Out.pure_eq]
    | inst cls fields =>
      by_cases hc : st.seen.contains (p a) = true
      · refine ⟨1, st.add (lit "REUSE_OBJECT(" ++ p a ++ lit ")"), fun k' hk => ?_, Nat.le_refl _⟩
        obtain ⟨k, rfl⟩ : ∃ k, k' = k + 1 := ⟨k' - 1, by omega⟩
        rw [dumpRec, if_neg h0, hH]
        simp only [even_noWeaken hev hH, hc, if_true]
      · have hc' : st.seen.contains (p a) = false := by simpa using hc
        have hlt := (unseen_cons p st.seen (p a) objs).2 a (hfin a cls fields hH) rfl hc'
        obtain ⟨k, st', h1, hi⟩ := loop_ends (fun k => showField (fun a st => dumpRec p H k a (d + 1) st)) (d + 1)
          (fun st' => unseen p objs st'.seen ≤ unseen p objs (p a :: st.seen)) (fun _ _ h => h) fields
          (fun f hf st1 h => by
            obtain ⟨nm, v⟩ := f
            cases v with
            | num m => exact ⟨0, _, fun _ _ => rfl, h⟩
            | ref w =>
              obtain ⟨k, st', h1, h2⟩ := ihn (unseen p objs (p a :: st.seen)) (Nat.lt_of_lt_of_le hlt hu) (rank (noWeaken w) + 1) (noWeaken w) (d + 1)
                ((st1.add nm).add (lit " => ")) h (fun _ => Nat.lt_succ_self _)
                (hclosed a _ hH w (List.mem_filterMap.2 ⟨(nm, .ref w), hf, rfl⟩))
              exact ⟨k, st', h1, Nat.le_trans h2 h⟩)
          (((({ st with seen := p a :: st.seen } : St).add cls).add (lit " (" ++ p a ++ lit ") ")).add (lit "{\n")) (Nat.le_refl _)
        refine ⟨k + 1, (st'.add (pad d)).add (lit "}"), fun k' hk => ?_, Nat.le_trans hi (Nat.le_of_lt hlt)⟩
        obtain ⟨j, rfl⟩ : ∃ j, k' = j + 1 := ⟨k' - 1, by omega⟩
        rw [dumpRec, if_neg h0, hH]
        simp only [even_noWeaken hev hH, hc', Bool.false_eq_true, if_false]
        simp only [h1 j (by omega), Out.ok_bind, Out.pure_eq]

end Dump
end SPVM
