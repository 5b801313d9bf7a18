import Verif.Lemmas.StrBuf
import Verif.Props.FnMem
/-!
# C05, C06: `StringBuffer`
-/
set_option linter.unusedSimpArgs false
namespace SPVM
namespace StrBuf
open VM (Bytes LexLt StrLt)
open Spec.StrBuf (Op Res)

/-- The arguments are what the language allows. -/
def IntArgs : Op → Prop
  | .push s o n => I32 o ∧ I32 n ∧ (s.getD []).length ≤ 2147483647
  | .pushChar c => I32 c
  | .replace o n r => I32 o ∧ I32 n ∧ (r.getD []).length ≤ 2147483647
  | .reserve n | .setLength n => I32 n
  | .set s => (s.getD []).length ≤ 2147483647
  | _ => True

/-- Number of bytes the operation may ask the allocator for. -/
def need (xs : Bytes) : Op → Int
  | .push s _ n => 2 * (xs.length + max ((s.getD []).length : Int) n)
  | .pushChar _ => 2 * (xs.length + 1)
  | .replace _ n r => 2 * (xs.length - n + (r.getD []).length)
  | .reserve n => n
  | .setLength n => 2 * n
  | .set s => 2 * (s.getD []).length
  | _ => 0

/-- The sum of two `int` arguments that the operation computes. -/
def argSum : Op → Int
  | .push _ o n | .replace o n _ => o + n
  | _ => 0

/-- Whether bytes of the old contents may remain beyond the end: after a `replace` that shortens, until the next
`set_length` or `set`. -/
def staleAfter (stale : Bool) : Op → Bool
  | .replace _ n r => stale || decide ((r.getD []).length < n)
  | .setLength _ | .set _ => false
  | _ => stale

/-- The operation is one whose result is that of the specification. -/
def Plain (stale : Bool) (xs : Bytes) : Op → Prop
  | .setLength n => n ≤ xs.length ∨ stale = false
  | .set s => s ≠ none
  | _ => True

theorem lift_res {p : Prog σ β} {f : β → γ} {s s' : σ} {b : β} (h : p s = (.ok b, s')) :
    (p >>= fun b => (pure (f b) : Prog σ γ)) s = (.ok (f b), s') := by
  rw [Prog.bind_ok h]; rfl

theorem lift_ub {p : Prog σ β} {f : β → Prog σ γ} {s s' : σ} (h : p s = (.ub, s')) :
    (p >>= f) s = (.ub, s') := by simp [Prog.bind_apply, h]

/-- Case analysis of one operation. -/
theorem step_cases {limit : Nat} (hlim : limit ≤ 2147483646) {b : StrBuf} {xs rest : Bytes}
    (h : Rep limit b xs rest) (stale : Bool) (hst : stale = false → Clean rest) (op : Op) (ha : IntArgs op)
    (hsum : argSum op ≤ 2147483647) :
    (∃ m, Spec.StrBuf.step xs op = none ∧ (∀ s, op ≠ .set s) ∧ step limit op b = (.die m, b)) ∨
    (∃ r ys b' rest', step limit op b = (.ok r, b') ∧ Rep limit b' ys rest' ∧
      (Plain stale xs op → Spec.StrBuf.step xs op = some (r, ys)) ∧ (staleAfter stale op = false → Clean rest')) ∨
    (∃ m b' ys rest', step limit op b = (.die m, b') ∧ (limit < need xs op ∨ op = .set none) ∧ Rep limit b' ys rest' ∧
      ((∀ s, op ≠ .set s) → b' = b)) ∨
    (∃ b', step limit op b = (.ub, b') ∧ 2147483647 < need xs op) := by
  have hl := h.len
  cases op with
  | length => exact .inr (.inl ⟨_, xs, b, rest, rfl, h, fun _ => by simp [Spec.StrBuf.step, hl], hst⟩)
  | toString => exact .inr (.inl ⟨_, xs, b, rest, lift_res (toString_ok hlim h), h, fun _ => rfl, hst⟩)
  | push s o n =>
    obtain ⟨a1, a2, a3⟩ := ha
    by_cases hbad : ∀ s', s = some s' → ¬ (0 ≤ o ∧ ((n = -1 ∧ o ≤ s'.length) ∨ (0 ≤ n ∧ o + n ≤ s'.length)))
    · obtain ⟨m, e⟩ := push_die hlim h s o n a3 a1 a2 hsum hbad
      refine .inl ⟨m, ?_, by simp, Prog.bind_die e⟩
      cases s with
      | none => rfl
      | some s =>
        have := hbad s rfl
        simp only [Spec.StrBuf.step]
        split
        · rw [if_neg (by omega)]
        · rw [if_neg (by omega)]
    · simp only [Classical.not_forall, Classical.not_not] at hbad
      obtain ⟨s', rfl, h0, hb⟩ := hbad
      simp only [Option.getD_some] at a3
      obtain ⟨k, hk0, hk1, hk2, hk3⟩ : ∃ k : Int, 0 ≤ k ∧ o + k ≤ s'.length ∧ ((n = -1 ∧ k = s'.length - o) ∨ (n = k)) ∧
          Spec.StrBuf.step xs (.push (some s') o n) = some (.unit, xs ++ (s'.drop o.toNat).take k.toNat) := by
        rcases hb with ⟨rfl, hb⟩ | ⟨hb1, hb2⟩
        · refine ⟨s'.length - o, by omega, by omega, .inl ⟨rfl, rfl⟩, ?_⟩
          simp only [Spec.StrBuf.step]
          rw [if_pos trivial, if_pos (by omega), List.take_of_length_le (by simp; omega)]
        · refine ⟨n, by omega, by omega, .inr rfl, ?_⟩
          simp only [Spec.StrBuf.step]
          rw [if_neg (by omega), if_pos (by omega)]
      rcases push_cases hlim h s' o k h0 hk0 hk1 a3 n hk2 with ⟨b', rest', e, r, hc⟩ | ⟨m, e, hn⟩ | ⟨e, hn⟩
      · exact .inr (.inl ⟨.unit, _, b', rest', lift_res e, r, fun _ => hk3, fun hs => hc (hst hs)⟩)
      · exact .inr (.inr (.inl ⟨m, b, xs, rest, Prog.bind_die e, .inl (by simp [need]; omega), h, fun _ => rfl⟩))
      · exact .inr (.inr (.inr ⟨b, lift_ub e, by simp [need]; omega⟩))
  | pushChar c =>
    rcases pushChar_cases hlim h c with ⟨b', rest', e, r, hc⟩ | ⟨m, e, hn⟩ | ⟨e, hn⟩
    · exact .inr (.inl ⟨.unit, _, b', rest', lift_res e, r, fun _ => rfl, fun hs => hc (hst hs)⟩)
    · exact .inr (.inr (.inl ⟨m, b, xs, rest, Prog.bind_die e, .inl (by simp [need]; omega), h, fun _ => rfl⟩))
    · exact .inr (.inr (.inr ⟨b, lift_ub e, by simp [need]; omega⟩))
  | replace o n r =>
    obtain ⟨a1, a2, a3⟩ := ha
    unfold I32 at a1 a2
    simp only [argSum] at hsum
    by_cases hr : 0 ≤ o ∧ 0 ≤ n ∧ o + n ≤ xs.length
    · rcases replace_cases hlim h o n r hr.1 hr.2.1 hr.2.2 a3 with ⟨b', rest', e, rr, hc⟩ | ⟨m, e, hn⟩ | ⟨e, hn⟩
      · refine .inr (.inl ⟨.unit, _, b', rest', lift_res e, rr, fun _ => ?_, fun hs => ?_⟩)
        · simp only [Spec.StrBuf.step]; rw [if_pos hr]
        · simp [staleAfter] at hs
          exact hc (hst hs.1) hs.2
      · exact .inr (.inr (.inl ⟨m, b, xs, rest, Prog.bind_die e, .inl (by simp only [need]; omega), h, fun _ => rfl⟩))
      · exact .inr (.inr (.inr ⟨b, lift_ub e, by simp only [need]; omega⟩))
    · obtain ⟨m, e⟩ : ∃ m, replace limit o n r b = (.die m, b) := by
        unfold replace
        simp only [Prog.ite_apply]
        by_cases h0 : 0 ≤ o
        · rw [if_neg (by omega)]
          by_cases h1 : 0 ≤ n
          · rw [if_neg (by omega)]
            simp only [Prog.get_bind_apply]
            rw [add32_ok (by unfold I32; omega)]
            simp only [Prog.lift_ok_bind, Prog.ite_apply]
            rw [if_pos (by omega)]
            exact ⟨_, rfl⟩
          · rw [if_pos (by omega)]
            exact ⟨_, rfl⟩
        · rw [if_pos (by omega)]
          exact ⟨_, rfl⟩
      refine .inl ⟨m, ?_, by simp, Prog.bind_die e⟩
      simp only [Spec.StrBuf.step]; rw [if_neg hr]
  | reserve n =>
    by_cases h0 : 0 ≤ n
    · rcases reserve_cases hlim h n h0 with ⟨b', rest', e, r, hc⟩ | ⟨m, e, hn⟩
      · refine .inr (.inl ⟨.unit, _, b', rest', lift_res e, r, fun _ => ?_, fun hs => hc (hst hs)⟩)
        simp only [Spec.StrBuf.step]; rw [if_pos h0]
      · exact .inr (.inr (.inl ⟨m, b, xs, rest, Prog.bind_die e, .inl hn, h, fun _ => rfl⟩))
    · refine .inl ⟨msgCapNeg, by simp only [Spec.StrBuf.step]; rw [if_neg h0], by simp, Prog.bind_die ?_⟩
      unfold reserve
      simp only [Prog.ite_apply]
      rw [if_pos (by omega)]; rfl
  | setLength n =>
    by_cases h0 : 0 ≤ n
    · rcases setLength_cases hlim h n h0 with ⟨b', rest', ys, e, r, hc, hy⟩ | ⟨m, e, hn, _⟩ | ⟨e, hn, _⟩
      · refine .inr (.inl ⟨.unit, ys, b', rest', lift_res e, r, fun hp => ?_, fun _ => hc⟩)
        rw [hy]
        · simp only [Spec.StrBuf.step]; rw [if_pos h0]
        · rcases hp with hp | hp
          · exact .inl hp
          · exact .inr (hst hp)
      · exact .inr (.inr (.inl ⟨m, b, xs, rest, Prog.bind_die e, .inl hn, h, fun _ => rfl⟩))
      · exact .inr (.inr (.inr ⟨b, lift_ub e, by simp only [need]; omega⟩))
    · refine .inl ⟨msgLenNeg, by simp only [Spec.StrBuf.step]; rw [if_neg h0], by simp, Prog.bind_die ?_⟩
      unfold setLength
      simp only [Prog.ite_apply]
      rw [if_pos (by omega)]; rfl
  | set s =>
    simp only [IntArgs] at ha
    rcases setLength_cases hlim h 0 (by omega) with ⟨b1, rest1, ys, e, r, hc, hy⟩ | ⟨m, e, hn, hn'⟩ | ⟨e, hn, hn'⟩
    · have := hy (.inl (by omega))
      simp at this
      subst this
      cases s with
      | none =>
        refine .inr (.inr (.inl ⟨Str.msgStringUndef, b1, [], rest1, Prog.bind_die ?_, .inr rfl, r, fun hne => absurd rfl (hne none)⟩))
        unfold set
        rw [Prog.bind_ok e]
        rfl
      | some s =>
        simp only [Option.getD_some] at ha
        have es : set limit (some s) b = push limit (some s) 0 (-1) b1 := by
          unfold set
          rw [Prog.bind_ok e]
        rcases push_cases hlim r s 0 s.length (by omega) (by omega) (by omega) ha (-1) (.inl ⟨rfl, by omega⟩) with
          ⟨b', rest', e2, r2, hc2⟩ | ⟨m, e2, hn⟩ | ⟨e2, hn⟩
        · refine .inr (.inl ⟨.unit, s, b', rest', lift_res (by rw [es]; exact e2), by simpa using r2, fun _ => rfl, fun _ => hc2 hc⟩)
        · refine .inr (.inr (.inl ⟨m, b1, [], rest1, Prog.bind_die (by rw [es]; exact e2), .inl ?_, r, fun hne => absurd rfl (hne (some s))⟩))
          simp [need] at hn ⊢; omega
        · refine .inr (.inr (.inr ⟨b1, lift_ub (by rw [es]; exact e2), ?_⟩))
          simp [need] at hn ⊢; omega
    · omega
    · omega

/-! ## C05 -/

def nextStale (stale : Bool) (xs : Bytes) (op : Op) : Bool :=
  if (Spec.StrBuf.step xs op).isSome then staleAfter stale op else stale

/-- The operation is within the proved domain: language-conforming arguments, enough memory, and not one of the two
cases in which the code departs from the specification (`set(undef)`, growing `set_length` after a shortening
`replace`). -/
def Fits (limit : Nat) (stale : Bool) (xs : Bytes) (op : Op) : Prop :=
  IntArgs op ∧ argSum op ≤ 2147483647 ∧ need xs op ≤ limit ∧ Plain stale xs op

def FitsAll (limit : Nat) (stale : Bool) (xs : Bytes) : List Op → Prop
  | [] => True
  | op :: ops => Fits limit stale xs op ∧ FitsAll limit (nextStale stale xs op) (Spec.StrBuf.next xs op) ops

/-- Same result, or both throw. -/
def Agrees (o : Out Res) (s : Option Res) : Prop :=
  (∃ r, o = .ok r ∧ s = some r) ∨ (∃ m, o = .die m ∧ s = none)

def AgreesAll (xs : Bytes) : List Op → List (Out Res) → Prop
  | [], [] => True
  | op :: ops, o :: os => Agrees o ((Spec.StrBuf.step xs op).map (·.1)) ∧ AgreesAll (Spec.StrBuf.next xs op) ops os
  | _, _ => False

theorem run_agrees {limit : Nat} (hlim : limit ≤ 2147483646) {b : StrBuf} {xs rest : Bytes} (h : Rep limit b xs rest)
    (stale : Bool) (hst : stale = false → Clean rest) (ops : List Op) (hf : FitsAll limit stale xs ops) :
    AgreesAll xs ops (run limit b ops) := by
  induction ops generalizing b xs rest stale with
  | nil => trivial
  | cons op ops ih =>
    obtain ⟨⟨f1, f2, f3, f4⟩, f5⟩ := hf
    simp only [run, AgreesAll]
    rcases step_cases hlim h stale hst op f1 f2 with ⟨m, e1, _, e2⟩ | ⟨r, ys, b', rest', e2, r2, hp, hc⟩ | ⟨m, b', ys, rest', e2, hb, _, _⟩ | ⟨b', e2, hb⟩
    · rw [e2]
      refine ⟨.inr ⟨m, rfl, by rw [e1]; rfl⟩, ?_⟩
      simp only [Spec.StrBuf.next, nextStale, e1, Option.isSome_none, Bool.false_eq_true, if_false] at f5 ⊢
      exact ih h stale hst f5
    · have e1 := hp f4
      rw [e2]
      refine ⟨.inl ⟨r, rfl, by rw [e1]; rfl⟩, ?_⟩
      simp only [Spec.StrBuf.next, nextStale, e1, Option.isSome_some, if_true] at f5 ⊢
      exact ih r2 _ hc f5
    · rcases hb with hb | rfl
      · omega
      · exact absurd rfl f4
    · omega

/-- **C05** (`new`), full statement: every history on a buffer built by `new` shows the results of the byte string
operations.  Missing: `set(undef)` and a growing `set_length` after a shortening `replace` (the code departs from the
documentation there, see the `_violated` theorems), sums of arguments beyond `int`. -/
theorem c05_new_history_partial (limit : Nat) (hlim : limit ≤ 2147483646) (string : Option Bytes) (capacity : Int)
    (ops : List Op) (hsize : max ((string.getD []).length : Int) (max capacity 4) ≤ limit)
    (hf : FitsAll limit false (string.getD []) ops) :
    ∃ buffer, new limit string capacity = .ok buffer ∧ AgreesAll (string.getD []) ops (run limit buffer ops) := by
  obtain ⟨b, k, e, r⟩ := new_ok hlim string capacity hsize
  exact ⟨b, e, run_agrees hlim r false (fun _ => clean_replicate k) ops hf⟩

/-- **C05** (`new_len`). -/
theorem c05_new_len_history_partial (limit : Nat) (hlim : limit ≤ 2147483646) (length capacity : Int)
    (ops : List Op) (h0 : 0 ≤ length) (hsize : max length (max capacity 4) ≤ limit)
    (hf : FitsAll limit false (List.replicate length.toNat 0) ops) :
    ∃ buffer, newLen limit length capacity = .ok buffer ∧
      AgreesAll (List.replicate length.toNat 0) ops (run limit buffer ops) := by
  rcases newLen_cases (limit := limit) length capacity with ⟨h, _⟩ | ⟨_, _, b, k, e, r⟩ | ⟨_, h, _⟩
  · omega
  · exact ⟨b, e, run_agrees hlim r false (fun _ => clean_replicate k) ops hf⟩
  · split at h <;> omega

/-- Non-vacuity: growth, an in-place move, a shortening replace, refused calls. -/
example : FitsAll 1000 false [104, 105]
    [.push (some [1, 2, 3]) 0 (-1), .push (some [1, 2, 3]) 1 1, .pushChar 300, .replace 1 0 (some [9, 9, 9]), .setLength 12,
      .replace 0 4 none, .toString, .push none 0 (-1), .push (some [1]) 2 (-1), .set (some [7]), .setLength 3, .reserve 50,
      .length, .toString] := by
  simp [FitsAll, Fits, IntArgs, I32, argSum, need, Plain, nextStale, staleAfter, Spec.StrBuf.next, Spec.StrBuf.step]
  omega
example : ∃ b, new 1000 (some [104, 105]) = .ok b ∧
    (run 1000 b [.push (some [1, 2, 3]) 0 (-1), .push (some [1, 2, 3]) 1 1, .pushChar 300, .replace 1 0 (some [9, 9, 9]),
      .toString]).getLast? = some (.ok (.str [104, 9, 9, 9, 105, 1, 2, 3, 2, 44])) :=
  ⟨_, rfl, by decide +kernel⟩

/-- After a shortening `replace`, a growing `set_length` shows the old bytes instead of NUL bytes. -/
theorem c05_set_length_stale_violated :
    ∃ b, new 1000 (some [97, 98, 99, 100]) = .ok b ∧
      run 1000 b [.replace 0 4 none, .setLength 4, .toString] = [.ok .unit, .ok .unit, .ok (.str [97, 98, 99, 100])] :=
  ⟨_, rfl, by decide +kernel⟩

/-- `set(undef)` throws, but the contents are lost. -/
theorem c05_set_undef_violated :
    ∃ b, new 1000 (some [97, 98]) = .ok b ∧
      run 1000 b [.set none, .toString] = [.die Str.msgStringUndef, .ok (.str [])] :=
  ⟨_, rfl, by decide +kernel⟩

/-- Buffers a program can hold. -/
inductive Reachable (limit : Nat) : StrBuf → Prop
  | new {s capacity b} : (s.getD []).length ≤ 2147483647 → new limit s capacity = .ok b → Reachable limit b
  | newLen {length capacity b} : newLen limit length capacity = .ok b → Reachable limit b
  | step {b b' op r} : Reachable limit b → IntArgs op → argSum op ≤ 2147483647 → step limit op b = (.ok r, b') → Reachable limit b'
  | caught {b b' op m} : Reachable limit b → IntArgs op → argSum op ≤ 2147483647 → step limit op b = (.die m, b') → Reachable limit b'

theorem newLen_rep {limit : Nat} {length capacity : Int} {b : StrBuf} (h : newLen limit length capacity = .ok b) :
    ∃ xs rest, Rep limit b xs rest := by
  rcases newLen_cases (limit := limit) length capacity with ⟨_, e⟩ | ⟨_, _, b', k, e, r⟩ | ⟨_, _, m, e⟩ <;> rw [e] at h <;> cases h
  exact ⟨_, _, r⟩

theorem reachable_rep {limit : Nat} (hlim : limit ≤ 2147483646) {b : StrBuf} (h : Reachable limit b) :
    ∃ xs rest, Rep limit b xs rest := by
  induction h with
  | newLen h => exact newLen_rep h
  | @new s capacity b hs h =>
    cases s with
    | none => exact newLen_rep h
    | some s =>
      rcases newLen_cases (limit := limit) s.length capacity with ⟨_, e⟩ | ⟨_, hs, b', k, e, r⟩ | ⟨_, _, m, e⟩
      · simp [StrBuf.new, e] at h
      · have hm : max ((((some s).getD [] : Bytes)).length : Int) (if capacity < 0 then 4 else capacity) ≤ limit := hs
        have hl : b'.string.length = s.length + k := by rw [r.str]; simp
        have := r.lim
        have := r.len
        have := r.cap
        simp only [StrBuf.new, e, Out.ok_bind] at h
        rw [Str.memcpy_ok (by omega) (by omega) (by omega) (by omega) (by omega) (by omega) (by omega)] at h
        cases h
        refine ⟨s, List.replicate k 0, by simpa using r.len, ?_, ?_, ?_⟩
        · simp only []
          rw [blit_length (by simp; omega) (by simp)]; exact r.cap
        · show blit b'.string 0 s 0 s.length = _
          rw [blit_prefix (by omega) _ rfl, r.str]
          simp
        · simp only []
          rw [blit_length (by simp; omega) (by simp)]; exact r.lim
      · simp [StrBuf.new, e] at h
  | @step b b' op r _ ha hsum hs ih =>
    obtain ⟨xs, rest, hx⟩ := ih
    rcases step_cases hlim hx true (by simp) op ha hsum with ⟨m, e1, _, e2⟩ | ⟨r, ys, b', rest', e2, r2, hp, hc⟩ | ⟨m, b', ys, rest', e2, hb, r2, _⟩ | ⟨b', e2, hb⟩ <;>
      rw [e2] at hs <;> cases hs
    exact ⟨_, _, r2⟩
  | @caught b b' op m _ ha hsum hs ih =>
    obtain ⟨xs, rest, hx⟩ := ih
    rcases step_cases hlim hx true (by simp) op ha hsum with ⟨m, e1, _, e2⟩ | ⟨r, ys, b', rest', e2, r2, hp, hc⟩ | ⟨m, b', ys, rest', e2, hb, r2, _⟩ | ⟨b', e2, hb⟩ <;>
      rw [e2] at hs <;> cases hs
    · exact ⟨_, _, hx⟩
    · exact ⟨_, _, r2⟩

/-- **C05**, exceptions: an operation other than `set` that throws (bad argument or refused allocation) leaves the
buffer unchanged. -/
theorem c05_throw_changes_nothing_partial (limit : Nat) (hlim : limit ≤ 2147483646) {b b' : StrBuf} (h : Reachable limit b)
    (op : Op) (ha : IntArgs op) (hsum : argSum op ≤ 2147483647) (hset : ∀ s, op ≠ .set s) (m : String)
    (hd : step limit op b = (.die m, b')) : b' = b := by
  obtain ⟨xs, rest, hx⟩ := reachable_rep hlim h
  rcases step_cases hlim hx true (by simp) op ha hsum with ⟨m, e1, _, e2⟩ | ⟨r, ys, b', rest', e2, r2, hp, hc⟩ | ⟨m, b', ys, rest', e2, hb, r2, hn⟩ | ⟨b', e2, hb⟩ <;>
      rw [e2] at hd <;> cases hd
  · rfl
  · exact hn hset

example : ∃ b, Reachable 1000 b ∧ ∃ b', step 1000 (.push (some [1, 2, 3]) 2 5) b = (.die msgPushRange, b') :=
  ⟨_, .new (s := some [97, 98]) (capacity := -1) (by decide) rfl, _, rfl⟩

/-! ## C06 -/

/-- What `to_string` returns for a buffer, `undef` for `undef`. -/
def Shows (limit : Nat) : Option StrBuf → Option Bytes → Prop
  | none, none => True
  | some b, some s => (toString limit b).1 = .ok s
  | _, _ => False

/-- The bytes a reachable buffer shows always exist. -/
theorem shows_exists (limit : Nat) (hlim : limit ≤ 2147483646) (b : StrBuf) (h : Reachable limit b) :
    ∃ s, Shows limit (some b) (some s) := by
  obtain ⟨xs, rest, hx⟩ := reachable_rep hlim h
  exact ⟨xs, by simp [Shows, toString_ok hlim hx]⟩

theorem cmp_rep {limit : Nat} (hlim : limit ≤ 2147483646) {a b : StrBuf} {xs ys ra rb : Bytes} (ha : Rep limit a xs ra)
    (hb : Rep limit b ys rb) : cmp (some a) (some b) = VM.stringCmp (some xs) (some ys) := by
  have ⟨a1, a2, a3, a4⟩ := ha
  have ⟨b1, b2, b3, b4⟩ := hb
  have hal : a.string.length = xs.length + ra.length := by rw [a3]; simp
  have hbl : b.string.length = ys.length + rb.length := by rw [b3]; simp
  have hshort : (if a.length < b.length then a.length else b.length) =
      (((if xs.length < ys.length then xs.length else ys.length : Nat)) : Int) := by
    split <;> split <;> omega
  have hs1 : (if xs.length < ys.length then xs.length else ys.length) ≤ xs.length := by split <;> omega
  have hs2 : (if xs.length < ys.length then xs.length else ys.length) ≤ ys.length := by split <;> omega
  unfold cmp VM.stringCmp
  simp only [hshort]
  generalize (if xs.length < ys.length then xs.length else ys.length) = n at hs1 hs2
  have e : FnMem.memcmp (some (.str a.string)) 0 (some (.str b.string)) 0 (n : Int) = VM.memcmp xs ys n := by
    unfold FnMem.memcmp
    simp only [FnMem.MemObj.str]
    simp only [Bool.true_eq_false, if_false]
    rw [if_neg (by omega), mul32, mul32, Int.one_mul, Int.one_mul, chk32_ok (by unfold I32; omega),
      chk32_ok (by unfold I32; omega), add32_ok (by unfold I32; omega)]
    simp only [Out.ok_bind]
    rw [if_neg (by omega), if_neg (by omega)]
    unfold FnMem.pointer
    rw [if_pos (by omega), if_pos (by omega)]
    simp only [Out.ok_bind]
    show VM.memcmp a.string b.string n = _
    rw [a3, b3, FnMem.memcmp_take, List.take_append_of_le_length hs1, List.take_append_of_le_length hs2,
      ← FnMem.memcmp_take]
  rw [e]
  cases VM.memcmp xs ys n with
  | die m => rfl
  | ub => rfl
  | ok r =>
    simp only [Out.ok_bind, Out.pure_eq]
    by_cases h1 : r ≠ 0
    · rw [if_pos h1, if_pos h1]
    · rw [if_neg h1, if_neg h1]
      by_cases h2 : xs.length = ys.length
      · rw [if_pos h2, if_pos (by omega)]
      · rw [if_neg h2, if_neg (by omega)]
        by_cases h3 : xs.length < ys.length
        · rw [if_pos h3, if_pos (by omega)]
        · rw [if_neg h3, if_neg (by omega)]

/-- **C06**: for all reachable buffers (or `undef`), `cmp` is -1, 0 or 1 according to the lexicographic order of the
strings the buffers show, with `undef` least, and `eq` is 1 exactly when both show the same string, 0 otherwise. -/
theorem c06_cmp_eq (limit : Nat) (hlim : limit ≤ 2147483646) (a b : Option StrBuf)
    (ha : ∀ x, a = some x → Reachable limit x) (hb : ∀ x, b = some x → Reachable limit x) (s t : Option Bytes)
    (hs : Shows limit a s) (ht : Shows limit b t) :
    ((cmp a b = .ok (-1) ∧ StrLt s t) ∨ (cmp a b = .ok 0 ∧ s = t) ∨ (cmp a b = .ok 1 ∧ StrLt t s)) ∧
    eq a b = .ok (if s = t then 1 else 0) := by
  have key : cmp a b = VM.stringCmp s t := by
    cases a with
    | none =>
      cases s with
      | some s => simp [Shows] at hs
      | none =>
        cases b with
        | none => cases t with
          | none => rfl
          | some t => simp [Shows] at ht
        | some b => cases t with
          | none => simp [Shows] at ht
          | some t => rfl
    | some a =>
      cases s with
      | none => simp [Shows] at hs
      | some s =>
        cases b with
        | none => cases t with
          | none => rfl
          | some t => simp [Shows] at ht
        | some b => cases t with
          | none => simp [Shows] at ht
          | some t =>
            obtain ⟨xs, ra, hxa⟩ := reachable_rep hlim (ha a rfl)
            obtain ⟨ys, rb, hyb⟩ := reachable_rep hlim (hb b rfl)
            simp [Shows, toString_ok hlim hxa] at hs
            simp [Shows, toString_ok hlim hyb] at ht
            subst hs; subst ht
            exact cmp_rep hlim hxa hyb
  have hc := VM.stringCmp_spec s t
  rw [← key] at hc
  refine ⟨hc, ?_⟩
  have hne : ∀ {u v : Option Bytes}, StrLt u v → u ≠ v := fun h e => VM.strLt_irrefl _ (e ▸ h)
  cases a with
  | none =>
    cases b with
    | none => cases s <;> cases t <;> simp_all [Shows, eq]
    | some b => cases s <;> cases t <;> simp_all [Shows, eq]
  | some a =>
    cases b with
    | none => cases s <;> cases t <;> simp_all [Shows, eq]
    | some b =>
      simp only [eq]
      rcases hc with ⟨h, hh⟩ | ⟨h, hh⟩ | ⟨h, hh⟩
      · rw [h, if_neg (hne hh)]; rfl
      · rw [h, if_pos hh]; rfl
      · rw [h, if_neg (fun e => hne hh e.symm)]; rfl

/-- Non-vacuity: two buffers with equal contents and different capacities. -/
example : ∃ a b, Reachable 1000 a ∧ Reachable 1000 b ∧ a.capacity ≠ b.capacity ∧
    cmp (some a) (some b) = .ok 0 ∧ eq (some a) (some b) = .ok 1 :=
  ⟨_, _, .new (s := some [97, 98]) (capacity := -1) (by decide) rfl, .new (s := some [97, 98]) (capacity := 20) (by decide) rfl,
    by decide, by rfl, by rfl⟩

/-- `clone` shows the same string. -/
theorem c06_clone (limit : Nat) (hlim : limit ≤ 2147483646) (h4 : 4 ≤ limit) (b : StrBuf) (h : Reachable limit b) (s : Bytes)
    (hs : Shows limit (some b) (some s)) : ∃ c, clone limit b = .ok c ∧ Shows limit (some c) (some s) := by
  obtain ⟨xs, rest, hx⟩ := reachable_rep hlim h
  have hl := hx.lim
  rw [hx.str] at hl
  simp at hl
  simp [Shows, toString_ok hlim hx] at hs
  subst hs
  obtain ⟨c, k, e, r⟩ := new_ok hlim (some xs) (-1) (by simp; omega)
  refine ⟨c, by simp [clone, toString_ok hlim hx, e], ?_⟩
  simp only [Shows, toString_ok hlim r, Option.getD_some]

end StrBuf
end SPVM
