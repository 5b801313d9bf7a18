import Verif.Model.Format
import Verif.Lemmas.StrBuf
import Verif.Lemmas.FnStr
import Verif.Props.Utf8
import Verif.Lemmas.Hash
import Verif.Props.TypeCache
/-!
# Lemmas for `Format->sprintf`
-/
set_option linter.unusedSimpArgs false
set_option linter.unusedVariables false
set_option linter.constructorNameAsVariable false
namespace SPVM
namespace Format
open VM (Bytes)
open Str (substr toByte)
open StrBuf (Rep)
open Spec.Format (Arg Piece Flag)

/-! ### Reading a specifier -/

/-- The effect of a flag. -/
def flagStep (fl : Flags) : Flag → Flags
  | .zero => { fl with pad := 48 }
  | .plus => { fl with plus := true }
  | .minus => { fl with left := true }

theorem flagLoop_eq {c : UInt8} (hc : c ≠ 48 ∧ c ≠ 43 ∧ c ≠ 45) (post : Bytes) :
    ∀ (flags : List Flag) (pre : Bytes) (fl : Flags) (n : Nat), flags.length < n →
      (pre ++ (flags.map Flag.char ++ c :: post)).length ≤ 2147483647 →
      flagLoop (pre ++ (flags.map Flag.char ++ c :: post)) n pre.length fl =
        .ok ((pre.length + flags.length : Int), flags.foldl flagStep fl)
  | [], pre, fl, n, hn, hl => by
    obtain ⟨m, rfl⟩ : ∃ m, n = m + 1 := ⟨n - 1, by omega⟩
    simp only [List.map_nil, List.nil_append, List.foldl_nil, List.length_nil] at *
    unfold flagLoop
    simp only [List.length_append, List.length_cons] at hl
    rw [if_pos (by simp; omega), Hash.aGet_mid rfl, Out.ok_bind, add32_ok (by unfold I32; omega), Out.ok_bind,
      if_neg hc.1, if_neg hc.2.1, if_neg hc.2.2]
    simp
  | f :: flags, pre, fl, n, hn, hl => by
    obtain ⟨m, rfl⟩ : ∃ m, n = m + 1 := ⟨n - 1, by omega⟩
    simp only [List.map_cons, List.cons_append] at *
    have ih := flagLoop_eq hc post flags (pre ++ [f.char]) (flagStep fl f) m (by simp at hn; omega) (by simpa using hl)
    unfold flagLoop
    have hl' := hl
    simp only [List.length_append, List.length_cons, List.length_map] at hl
    rw [if_pos (by simp; omega), Hash.aGet_mid rfl, Out.ok_bind, add32_ok (by unfold I32; omega), Out.ok_bind]
    have e1 : pre ++ [f.char] ++ (flags.map Flag.char ++ c :: post) = pre ++ f.char :: (flags.map Flag.char ++ c :: post) := by
      simp
    rw [e1] at ih
    simp only [List.length_append, List.length_singleton, Int.natCast_add, Int.natCast_one] at ih
    have goal : ∀ g, g = flagStep fl f →
        flagLoop (pre ++ f.char :: (flags.map Flag.char ++ c :: post)) m (pre.length + 1 : Int) g =
        .ok ((pre.length + (f :: flags).length : Int), (f :: flags).foldl flagStep fl) := by
      intro g hg
      subst hg
      rw [show ((pre.length : Int) + 1) = ((pre.length : Int) + ((1 : Nat) : Int)) by simp] at *
      rw [ih]
      simp only [List.length_cons, List.foldl_cons]
      congr 2
      push_cast; omega
    cases f
    · rw [if_pos (show Flag.zero.char = 48 from rfl)]; exact goal _ rfl
    · rw [if_neg (by decide), if_pos (show Flag.plus.char = 43 from rfl)]; exact goal _ rfl
    · rw [if_neg (by decide), if_neg (by decide), if_pos (show Flag.minus.char = 45 from rfl)]; exact goal _ rfl

/-- A byte that is no digit. -/
def NoDigit (c : UInt8) : Prop := c.toNat < 48 ∨ 57 < c.toNat

def numStep (v : Nat) (c : UInt8) : Nat := v * 10 + (c.toNat - 48)

theorem numStep_mono (ds : Bytes) (v : Nat) : v ≤ ds.foldl numStep v := by
  induction ds generalizing v with
  | nil => simp
  | cons d ds ih =>
    have := ih (numStep v d)
    simp only [List.foldl_cons]
    have : v ≤ numStep v d := by unfold numStep; omega
    omega

theorem numLoop_eq {c : UInt8} (hc : NoDigit c) (post : Bytes) :
    ∀ (ds pre : Bytes) (v : Nat) (h : Bool) (n : Nat), ds.length < n → (∀ d ∈ ds, ¬ NoDigit d) →
      (pre ++ (ds ++ c :: post)).length ≤ 2147483647 → ds.foldl numStep v ≤ 2147483599 →
      numLoop (pre ++ (ds ++ c :: post)) n pre.length v h =
        .ok ((pre.length + ds.length : Int), (ds.foldl numStep v : Nat), h || !ds.isEmpty)
  | [], pre, v, h, n, hn, hd, hl, hv => by
    obtain ⟨m, rfl⟩ : ∃ m, n = m + 1 := ⟨n - 1, by omega⟩
    simp only [List.nil_append, List.foldl_nil, List.length_nil] at *
    unfold numLoop
    simp only [List.length_append, List.length_cons] at hl
    rw [if_pos (by simp; omega), Hash.aGet_mid rfl, Out.ok_bind, if_pos (show c.toNat < 48 ∨ 57 < c.toNat from hc)]
    simp
  | d :: ds, pre, v, h, n, hn, hd, hl, hv => by
    obtain ⟨m, rfl⟩ : ∃ m, n = m + 1 := ⟨n - 1, by omega⟩
    simp only [List.cons_append, List.foldl_cons] at *
    have ih := numLoop_eq hc post ds (pre ++ [d]) (numStep v d) true m (by simp at hn; omega)
      (fun x hx => hd x (by simp [hx])) (by simpa using hl) hv
    have e1 : pre ++ [d] ++ (ds ++ c :: post) = pre ++ d :: (ds ++ c :: post) := by simp
    rw [e1] at ih
    have hm := numStep_mono ds (numStep v d)
    have hdd := hd d (by simp)
    unfold NoDigit at hdd
    have hns : numStep v d = v * 10 + (d.toNat - 48) := rfl
    have hval : ((v : Int) * 10 + d.toNat - 48) = (numStep v d : Nat) := by unfold numStep; omega
    simp only [List.length_append, List.length_cons] at hl
    unfold numLoop
    rw [if_pos (by simp; omega), Hash.aGet_mid rfl, Out.ok_bind, if_neg hdd, mul32_ok (by unfold I32; omega), Out.ok_bind,
      add32_ok (by unfold I32; omega), Out.ok_bind, sub32_ok (by unfold I32; omega), Out.ok_bind,
      add32_ok (by unfold I32; omega), Out.ok_bind, hval]
    rw [show ((pre.length : Int) + 1) = ((pre ++ [d]).length : Int) by simp, ih]
    simp only [List.length_append, List.length_cons, List.length_nil, Bool.true_or, List.isEmpty_cons, Bool.not_false, Bool.or_true]
    congr 2
    omega

theorem digits_fold (n : Nat) : (Spec.digits n).foldl numStep 0 = n := TypeCache.value_digits n

theorem digits_digit (n : Nat) : ∀ d ∈ Spec.digits n, ¬ NoDigit d := by
  induction n using Nat.strongRecOn with
  | ind n ih =>
    have hd : ∀ {d}, d < 10 → ¬ NoDigit (Spec.digit d) := by
      intro d h
      unfold NoDigit
      rw [TypeCache.digit_toNat h]
      omega
    unfold Spec.digits
    split
    · rename_i h; simpa using hd h
    · rename_i h
      intro d hm
      simp only [List.mem_append, List.mem_singleton] at hm
      rcases hm with hm | rfl
      · exact ih (n / 10) (by omega) d hm
      · exact hd (Nat.mod_lt _ (by omega))

theorem digits_ne_nil (n : Nat) : Spec.digits n ≠ [] := by
  unfold Spec.digits; split <;> simp

/-- A number other than 0 does not begin with the digit 0. -/
theorem digits_head (n : Nat) (h : n ≠ 0) : ∃ c r, Spec.digits n = c :: r ∧ c ≠ 48 ∧ c ≠ 43 ∧ c ≠ 45 := by
  induction n using Nat.strongRecOn with
  | ind n ih =>
    unfold Spec.digits
    split
    · rename_i hn
      refine ⟨_, [], rfl, ?_⟩
      have := TypeCache.digit_toNat hn
      refine ⟨?_, ?_, ?_⟩ <;> (intro he; rw [he] at this; simp at this; omega)
    · rename_i hn
      obtain ⟨c, r, e, hc⟩ := ih (n / 10) (by omega) (by omega)
      exact ⟨c, r ++ [_], by rw [e]; rfl, hc⟩

theorem flagLoop_at {fmt pre rest : Bytes} {flags : List Flag} (hf : fmt = pre ++ (flags.map Flag.char ++ rest))
    (hr : ∃ c r, rest = c :: r ∧ c ≠ 48 ∧ c ≠ 43 ∧ c ≠ 45) (hl : fmt.length ≤ 2147483647) {i : Int} (hi : i = pre.length)
    (fl : Flags) :
    flagLoop fmt fmt.length i fl = .ok (i + flags.length, flags.foldl flagStep fl) := by
  obtain ⟨c, r, rfl, hc⟩ := hr
  subst hf hi
  exact flagLoop_eq hc r flags pre fl _ (by simp; omega) hl

theorem numLoop_at {fmt pre ds rest : Bytes} (hf : fmt = pre ++ (ds ++ rest))
    (hr : ∃ c r, rest = c :: r ∧ NoDigit c) (hl : fmt.length ≤ 2147483647) {i : Int} (hi : i = pre.length)
    (hd : ∀ d ∈ ds, ¬ NoDigit d) (hv : ds.foldl numStep 0 ≤ 2147483599) :
    numLoop fmt fmt.length i 0 false = .ok (i + ds.length, (ds.foldl numStep 0 : Nat), !ds.isEmpty) := by
  obtain ⟨c, r, rfl, hc⟩ := hr
  subst hf hi
  have := numLoop_eq hc r ds pre 0 false (pre ++ (ds ++ c :: r)).length (by simp; omega) hd hl hv
  simpa using this

theorem looksAt_mid {fmt pre rest : Bytes} {c : UInt8} (hf : fmt = pre ++ c :: rest) {i : Int} (hi : i = pre.length) (b : UInt8) :
    looksAt fmt i b = .ok (c == b) := by
  subst hf hi
  unfold looksAt
  rw [if_pos (by simp; omega), Hash.aGet_mid rfl]
  rfl

theorem looksAt_end {fmt : Bytes} {i : Int} (hi : i = fmt.length) (b : UInt8) : looksAt fmt i b = .ok false := by
  unfold looksAt
  rw [if_neg (by omega)]

/-- The conversion of the code for one of the specification. -/
def conv : Spec.Format.Conv → Conv
  | .c => .c
  | .d => .d
  | .f => .f
  | .g => .g
  | .s => .s
  | .u => .u
  | .x => .x
  | .X => .X
  | .ld => .ld
  | .lu => .lu
  | .lx => .lx
  | .lX => .lX

/-- The precision as the code has it. -/
def prec : Option Nat → Int
  | none => -1
  | some n => n

theorem letters_head (c : Spec.Format.Conv) (post : Bytes) : ∃ l r, c.letters ++ post = l :: r ∧ NoDigit l ∧ l ≠ 46 ∧
    l ≠ 48 ∧ l ≠ 43 ∧ l ≠ 45 ∧ l ≠ 37 := by
  cases c <;> exact ⟨_, _, rfl, by unfold NoDigit; decide, by decide, by decide, by decide, by decide, by decide⟩

theorem precision_head (p : Option Nat) (c : Spec.Format.Conv) (post : Bytes) :
    ∃ l r, Spec.Format.precisionText p ++ (c.letters ++ post) = l :: r ∧ NoDigit l ∧ l ≠ 48 ∧ l ≠ 43 ∧ l ≠ 45 ∧ l ≠ 37 := by
  cases p with
  | none =>
    obtain ⟨l, r, e, h1, h2, h3⟩ := letters_head c post
    exact ⟨l, r, e, h1, h3⟩
  | some n => exact ⟨46, _, rfl, by unfold NoDigit; decide, by decide, by decide, by decide, by decide⟩

theorem width_head (w : Nat) (p : Option Nat) (c : Spec.Format.Conv) (post : Bytes) :
    ∃ l r, Spec.Format.widthText w ++ (Spec.Format.precisionText p ++ (c.letters ++ post)) = l :: r ∧
      l ≠ 48 ∧ l ≠ 43 ∧ l ≠ 45 ∧ l ≠ 37 := by
  unfold Spec.Format.widthText
  split
  · obtain ⟨l, r, e, h1, h2⟩ := precision_head p c post
    exact ⟨l, r, e, h2⟩
  · rename_i h
    obtain ⟨l, r, e, h1, h2, h3⟩ := digits_head w h
    refine ⟨l, r ++ _, by rw [e]; rfl, h1, h2, h3, ?_⟩
    intro hc
    have := digits_digit w l (by rw [e]; simp)
    rw [hc] at this
    exact this (by unfold NoDigit; decide)

theorem width_fold (w : Nat) : (Spec.Format.widthText w).foldl numStep 0 = w := by
  unfold Spec.Format.widthText
  split
  · rename_i h; simp [h]
  · exact digits_fold w

theorem width_digit (w : Nat) : ∀ d ∈ Spec.Format.widthText w, ¬ NoDigit d := by
  unfold Spec.Format.widthText
  split
  · simp
  · exact digits_digit w

theorem readPrecision_at {fmt pre post : Bytes} {p : Option Nat} {c : Spec.Format.Conv}
    (hf : fmt = pre ++ (Spec.Format.precisionText p ++ (c.letters ++ post))) (hl : fmt.length ≤ 2147483647)
    (hp : ∀ n, p = some n → n ≤ 2147483599) {i : Int} (hi : i = pre.length) :
    readPrecision fmt i = .ok (i + (Spec.Format.precisionText p).length, prec p, p.isSome) := by
  unfold readPrecision
  cases p with
  | none =>
    obtain ⟨l, r, e, h1, h2, h3⟩ := letters_head c post
    simp only [Spec.Format.precisionText, List.nil_append] at *
    rw [e] at hf
    rw [looksAt_mid hf hi, Out.ok_bind, if_neg (by simpa using h2)]
    simp [prec]
  | some n =>
    simp only [Spec.Format.precisionText, List.cons_append] at *
    have hlen := congrArg List.length hf
    simp only [List.length_append, List.length_cons] at hlen
    rw [looksAt_mid hf hi, Out.ok_bind, if_pos (by decide), add32_ok (by unfold I32; omega), Out.ok_bind]
    obtain ⟨l, r, e, h1, h2, h3⟩ := letters_head c post
    rw [numLoop_at (pre := pre ++ [46]) (ds := Spec.digits n) (rest := c.letters ++ post) (by rw [hf]; simp) ⟨l, r, e, h1⟩ hl
      (by simp; omega) (digits_digit n) (by rw [digits_fold]; exact hp n rfl), Out.ok_bind, digits_fold]
    have : (Spec.digits n).isEmpty = false := by
      cases h : Spec.digits n with
      | nil => exact absurd h (digits_ne_nil n)
      | cons => rfl
    simp only [this, Bool.not_false, if_true, prec, Option.isSome_some, List.length_cons]
    congr 2
    push_cast; omega

theorem readConv_at {fmt pre post : Bytes} {c : Spec.Format.Conv} {l : UInt8} {r : Bytes} (he : c.letters ++ post = l :: r)
    (hf : fmt = pre ++ (c.letters ++ post)) (hl : fmt.length ≤ 2147483647) {i : Int} (hi : i = pre.length + 1) :
    readConv fmt l i = .ok (pre.length + c.letters.length, conv c) := by
  have hlen := congrArg List.length hf
  simp only [List.length_append] at hlen
  have hlong : ∀ k, fmt = pre ++ (108 :: k :: post) → ∀ b, looksAt fmt i b = .ok (k == b) :=
    fun k h b => looksAt_mid (pre := pre ++ [108]) (c := k) (rest := post) (by rw [h]; simp) (by simp; omega) b
  cases c <;> (simp only [Spec.Format.Conv.letters, List.cons_append, List.nil_append, List.cons.injEq] at he) <;>
    (obtain ⟨rfl, rfl⟩ := he) <;> unfold readConv <;>
    simp only [Spec.Format.Conv.letters, List.cons_append, List.nil_append, List.length_cons, List.length_nil] at hf hlen ⊢
  all_goals first
    | (simp (decide := true) only [if_true, if_false, conv]; congr 2; done)
    | skip
  all_goals
    simp (decide := true) only [if_true, if_false]
    unfold readLong
    simp only [hlong _ hf, Out.ok_bind]
    simp (decide := true) only [if_true, if_false]
    rw [add32_ok (by unfold I32; omega), Out.ok_bind]
    simp only [conv]
    congr 2
    push_cast; omega

/-- The flags as the code has them. -/
def flagsOf (flags : List Flag) : Flags :=
  { pad := if Flag.minus ∈ flags then 32 else if Flag.zero ∈ flags then 48 else 32, plus := decide (Flag.plus ∈ flags), left := decide (Flag.minus ∈ flags) }

theorem flags_fold (flags : List Flag) (fl : Flags) :
    flags.foldl flagStep fl = ⟨if Flag.zero ∈ flags then 48 else fl.pad, fl.plus || decide (Flag.plus ∈ flags),
      fl.left || decide (Flag.minus ∈ flags)⟩ := by
  induction flags generalizing fl with
  | nil => simp
  | cons f flags ih =>
    rw [List.foldl_cons, ih]
    cases f <;> simp [flagStep]

theorem flagsOf_eq (flags : List Flag) :
    (if (flags.foldl flagStep {}).left = true then { flags.foldl flagStep {} with pad := 32 } else flags.foldl flagStep {}) = flagsOf flags := by
  rw [flags_fold]
  unfold flagsOf
  by_cases h : Flag.minus ∈ flags <;> simp [h]

/-- The code reads back a specifier as it is written. -/
theorem readSpec_at {fmt pre post : Bytes} {flags : List Flag} {w : Nat} {p : Option Nat} {c : Spec.Format.Conv}
    (hf : fmt = pre ++ ((Piece.field flags w p c).text ++ post)) (hl : fmt.length ≤ 2147483647)
    (hs : (Piece.field flags w p c).Small) {i : Int} (hi : i = pre.length) :
    readSpec fmt i = .ok (i + (Piece.field flags w p c).text.length, flagsOf flags, w, prec p, p.isSome, conv c) := by
  unfold readSpec
  have hf' : fmt = pre ++ 37 :: (flags.map Flag.char ++ (Spec.Format.widthText w ++ (Spec.Format.precisionText p ++ (c.letters ++ post)))) := by
    rw [hf]; simp [Spec.Format.Piece.text]
  have hlen := congrArg List.length hf'
  simp only [List.length_append, List.length_cons, List.length_map] at hlen
  rw [add32_ok (by unfold I32; omega), Out.ok_bind]
  obtain ⟨l1, r1, e1, h1⟩ := width_head w p c post
  rw [flagLoop_at (pre := pre ++ [37]) (flags := flags)
    (rest := Spec.Format.widthText w ++ (Spec.Format.precisionText p ++ (c.letters ++ post))) (by rw [hf']; simp)
    ⟨l1, r1, e1, h1.1, h1.2.1, h1.2.2.1⟩ hl (by simp; omega), Out.ok_bind]
  simp only [flagsOf_eq]
  obtain ⟨l2, r2, e2, h2⟩ := precision_head p c post
  rw [numLoop_at (pre := pre ++ 37 :: flags.map Flag.char) (ds := Spec.Format.widthText w)
    (rest := Spec.Format.precisionText p ++ (c.letters ++ post)) (by rw [hf']; simp)
    ⟨l2, r2, e2, h2.1⟩ hl (by simp; omega) (width_digit w) (by rw [width_fold]; exact hs.1), Out.ok_bind, width_fold]
  rw [readPrecision_at (pre := pre ++ 37 :: (flags.map Flag.char ++ Spec.Format.widthText w)) (p := p) (c := c) (post := post)
    (by rw [hf']; simp) hl hs.2 (by simp; omega), Out.ok_bind]
  obtain ⟨l3, r3, e3, h3⟩ := letters_head c post
  have e3l := congrArg List.length e3
  simp only [List.length_append, List.length_cons] at e3l
  rw [if_neg (fun hn => hn (by simp only []; omega))]
  have hf3 : fmt = (pre ++ 37 :: (flags.map Flag.char ++ (Spec.Format.widthText w ++ Spec.Format.precisionText p))) ++ (c.letters ++ post) := by
    rw [hf']; simp
  have hg : aGet fmt (i + 1 + flags.length + (Spec.Format.widthText w).length + (Spec.Format.precisionText p).length) = .ok l3 := by
    rw [hf3, e3]
    exact Hash.aGet_mid (by simp; omega)
  simp only []
  rw [hg, Out.ok_bind, add32_ok (by unfold I32; omega), Out.ok_bind, readConv_at e3 hf3 hl (by simp; omega), Out.ok_bind]
  simp only [Spec.Format.Piece.text, List.length_append, List.length_cons, List.length_map]
  congr 2
  push_cast; omega

/-! ### Writing a field -/

theorem native_ok {cap : Int} {t : Bytes} (h : (t.length : Int) < cap) : native cap t = .ok t := by
  unfold native
  rw [if_pos (by omega)]
  congr 1
  rw [List.take_of_length_le (l := t) (by omega)]
  simp

theorem hexDigits_eq (n : Nat) : hexDigits n = Spec.Format.hex Spec.Format.lowerHex n := by
  induction n using Nat.strongRecOn with
  | ind n ih =>
    have hd : ∀ d, hexDigit d = Spec.Format.lowerHex d := by
      intro d
      unfold hexDigit Spec.Format.lowerHex
      congr 1
      split <;> omega
    unfold hexDigits Spec.Format.hex
    split
    · rw [hd]
    · rename_i h
      rw [ih (n / 16) (by omega), hd]

theorem hex_length (f : Nat → UInt8) (n k : Nat) (hk : 0 < k) (h : n < 16 ^ k) : (Spec.Format.hex f n).length ≤ k := by
  induction k generalizing n with
  | zero => omega
  | succ k ih =>
    unfold Spec.Format.hex
    split
    · simp
    · rename_i hn
      by_cases hk0 : k = 0
      · subst hk0; simp at h; omega
      · have := ih (n / 16) (by omega) (by rw [Nat.div_lt_iff_lt_mul (by omega)]; rw [Nat.pow_succ] at h; exact h)
        simp; omega

theorem hex_ne_nil (f : Nat → UInt8) (n : Nat) : Spec.Format.hex f n ≠ [] := by
  unfold Spec.Format.hex; split <;> simp

theorem ucChar_hex : ∀ d < 16, FnStr.ucChar (Spec.Format.lowerHex d) = Spec.Format.upperHex d := by decide +kernel

theorem hex_upper (n : Nat) : (Spec.Format.hex Spec.Format.lowerHex n).map FnStr.ucChar = Spec.Format.hex Spec.Format.upperHex n := by
  induction n using Nat.strongRecOn with
  | ind n ih =>
    unfold Spec.Format.hex
    split
    · rename_i h; simp [ucChar_hex n h]
    · rename_i h
      simp [ih (n / 16) (by omega), ucChar_hex (n % 16) (Nat.mod_lt _ (by omega))]

theorem toByte_sbyte (b : UInt8) : toByte (FnStr.sbyte b) = b := by
  apply UInt8.toNat_inj.mp
  unfold toByte FnStr.sbyte
  have := b.toNat_lt
  split <;> simp <;> omega

/-- `P` appends `out` to a buffer that holds `xs`. -/
def Pushes (limit : Nat) (xs out : Bytes) (P : Prog StrBuf Unit) : Prop :=
  ∀ b rest, Rep limit b xs rest → ∃ b' rest', P b = (.ok (), b') ∧ Rep limit b' (xs ++ out) rest'

theorem Pushes.bind {limit : Nat} {xs o1 o2 : Bytes} {P Q : Prog StrBuf Unit} (h1 : Pushes limit xs o1 P)
    (h2 : Pushes limit (xs ++ o1) o2 Q) : Pushes limit xs (o1 ++ o2) (P >>= fun _ => Q) := by
  intro b rest hr
  obtain ⟨b1, r1, e1, hr1⟩ := h1 b rest hr
  obtain ⟨b2, r2, e2, hr2⟩ := h2 b1 r1 hr1
  exact ⟨b2, r2, by rw [Prog.bind_ok e1, e2], by rw [← List.append_assoc]; exact hr2⟩

theorem Pushes.nil (limit : Nat) (xs : Bytes) : Pushes limit xs [] (pure ()) :=
  fun b rest hr => ⟨b, rest, rfl, by simpa using hr⟩

theorem pushes_push {limit : Nat} (hlim : limit ≤ 2147483646) {xs t : Bytes} (h : 2 * (xs.length + t.length) ≤ limit) :
    Pushes limit xs t (StrBuf.push limit (some t)) := by
  intro b rest hr
  rcases StrBuf.push_cases hlim hr t 0 t.length (by omega) (by omega) (by omega) (by omega) (-1) (.inl ⟨rfl, by omega⟩) with
    ⟨b', rest', e, hr', _⟩ | ⟨_, _, h'⟩ | ⟨_, h'⟩
  · exact ⟨b', rest', e, by simpa using hr'⟩
  · omega
  · omega

theorem pushes_char {limit : Nat} (hlim : limit ≤ 2147483646) {xs : Bytes} (c : Int) (h : 2 * (xs.length + 1) ≤ limit) :
    Pushes limit xs [toByte c] (StrBuf.pushChar limit c) := by
  intro b rest hr
  rcases StrBuf.pushChar_cases hlim hr c with ⟨b', rest', e, hr', _⟩ | ⟨_, _, h'⟩ | ⟨_, h'⟩
  · exact ⟨b', rest', e, hr'⟩
  · omega
  · omega

theorem pushes_pad {limit : Nat} (hlim : limit ≤ 2147483646) (c : UInt8) :
    ∀ (n : Nat) (xs : Bytes), 2 * (xs.length + n) ≤ limit → Pushes limit xs (List.replicate n c) (pushPad limit c n)
  | 0, xs, _ => Pushes.nil limit xs
  | n + 1, xs, h => by
    unfold pushPad
    have h1 := pushes_char (xs := xs) hlim (FnStr.sbyte c) (by omega)
    rw [toByte_sbyte] at h1
    exact h1.bind (pushes_pad hlim c n (xs ++ [c]) (by simp; omega))

theorem pushes_plus {limit : Nat} (hlim : limit ≤ 2147483646) (plus : Bool) {xs : Bytes} (h : 2 * (xs.length + 1) ≤ limit ∨ plus = false) :
    Pushes limit xs (if plus then [43] else []) (pushPlus limit plus) := by
  unfold pushPlus
  cases plus with
  | false => exact Pushes.nil limit xs
  | true => exact pushes_char hlim 43 (by simpa using h)

theorem pushes_signed {limit : Nat} (hlim : limit ≤ 2147483646) {flags : List Flag} {signed : Bool} {w : Nat} {t xs : Bytes}
    (ht : t ≠ []) (hw : w ≤ 2147483647) (h : 2 * (xs.length + (Spec.Format.pad flags signed w t).length) ≤ limit) :
    Pushes limit xs (Spec.Format.pad flags signed w t)
      (pushSigned limit (some t) w (flagsOf flags).pad (flagsOf flags).left (signed && (flagsOf flags).plus)) := by
  obtain ⟨c, r, rfl⟩ : ∃ c r, t = c :: r := by
    cases t with
    | nil => exact absurd rfl ht
    | cons c r => exact ⟨c, r, rfl⟩
  unfold pushSigned
  simp only []
  have hg : aGet (c :: r) 0 = .ok c := rfl
  -- the plus sign
  have hplus : (c != 45 && (signed && (flagsOf flags).plus)) = decide (signed = true ∧ Flag.plus ∈ flags ∧ (c :: r).head? ≠ some 45) := by
    simp only [flagsOf, List.head?_cons, ne_eq, Option.some.injEq]
    by_cases h1 : c = 45 <;> cases signed <;> by_cases h2 : Flag.plus ∈ flags <;> simp [h1, h2]
  generalize hP : (c != 45 && (signed && (flagsOf flags).plus)) = plus at hplus
  have hpad : Spec.Format.pad flags signed w (c :: r) =
      if Flag.minus ∈ flags then (if plus then [43] else []) ++ ((c :: r) ++ List.replicate (w - ((if plus then [43] else []) ++ (c :: r) : Bytes).length) 32)
      else List.replicate (w - ((if plus then [43] else []) ++ (c :: r) : Bytes).length) (flagsOf flags).pad ++ ((if plus then [43] else []) ++ (c :: r)) := by
    unfold Spec.Format.pad
    rw [hplus]
    by_cases h1 : signed = true ∧ Flag.plus ∈ flags ∧ (c :: r).head? ≠ some 45
    · rw [decide_eq_true h1]
      simp only [if_pos h1]
      by_cases h2 : Flag.minus ∈ flags <;> simp [h2, flagsOf]
    · rw [decide_eq_false h1]
      simp only [if_neg h1]
      by_cases h2 : Flag.minus ∈ flags <;> simp [h2, flagsOf]
  have hl : 2 * (xs.length + ((if plus then [43] else []) ++ (c :: r) : Bytes).length +
      (w - ((if plus then [43] else []) ++ (c :: r) : Bytes).length)) ≤ limit := by
    rw [hpad] at h
    split at h <;> simp only [List.length_append, List.length_replicate] at h ⊢ <;> omega
  have hn : ∃ n : Int, (sub32 (w : Int) (c :: r).length >>= lessOne plus) = .ok n ∧
      n.toNat = w - ((if plus then [43] else []) ++ (c :: r) : Bytes).length := by
    simp only [List.length_append] at hl ⊢
    rw [sub32_ok (by unfold I32; omega), Out.ok_bind]
    unfold lessOne
    cases plus with
    | false => exact ⟨_, if_neg (by simp), by simp; omega⟩
    | true =>
      rw [if_pos rfl, sub32_ok (by unfold I32; simp at hl ⊢; omega)]
      exact ⟨_, rfl, by simp; omega⟩
  obtain ⟨n, hn1, hn2⟩ := hn
  intro b rest hr
  rw [hg, Prog.lift_ok_bind]
  have hstep : ∀ (K : Int → Prog StrBuf Unit), (do
      let n ← Prog.lift (sub32 (w : Int) (c :: r).length)
      let n ← Prog.lift (lessOne plus n)
      K n : Prog StrBuf Unit) b = K n b := by
    intro K
    simp only [List.length_append] at hl
    rw [sub32_ok (by unfold I32; omega), Out.ok_bind] at hn1
    rw [sub32_ok (by unfold I32; omega), Prog.lift_ok_bind, hn1, Prog.lift_ok_bind]
  rw [hP, hstep, hpad]
  have hleft : (flagsOf flags).left = decide (Flag.minus ∈ flags) := rfl
  have hpl : 2 * (xs.length + 1) ≤ limit ∨ plus = false := by
    cases plus
    · exact .inr rfl
    · left; simp at hl; omega
  have hpl2 : ∀ k, k = w - ((if plus then [43] else []) ++ (c :: r) : Bytes).length → 2 * (xs.length + k + 1) ≤ limit ∨ plus = false := by
    intro k hk
    cases plus
    · exact .inr rfl
    · left; simp at hl hk; omega
  by_cases hm : Flag.minus ∈ flags
  · have hp32 : (flagsOf flags).pad = 32 := by simp [flagsOf, hm]
    rw [hleft, if_pos (by simpa using hm), if_pos hm, hp32, hn2]
    refine ((pushes_plus hlim plus hpl).bind ((pushes_push hlim ?_).bind (pushes_pad hlim 32 _ _ ?_))) b rest hr
    · simp only [List.length_append] at hl ⊢; omega
    · simp only [List.length_append] at hl ⊢; omega
  · rw [hleft, if_neg (by simpa using hm), if_neg hm, hn2]
    refine ((pushes_pad hlim (flagsOf flags).pad _ _ ?_).bind ((pushes_plus hlim plus ?_).bind (pushes_push hlim ?_))) b rest hr
    · simp only [List.length_append] at hl ⊢; omega
    · simpa [Nat.add_assoc] using hpl2 _ rfl
    · simp only [List.length_append, List.length_replicate] at hl ⊢; omega

theorem decimal_ne_nil (x : Int) : Spec.decimal x ≠ [] := by
  unfold Spec.decimal
  split
  · simp
  · exact digits_ne_nil _

theorem decimal_length_int {x : Int} (h : -2147483648 ≤ x ∧ x ≤ 2147483647) : (Spec.decimal x).length ≤ 11 := by
  have := Spec.digits_length x.natAbs 10 (by omega) (by omega)
  unfold Spec.decimal
  split
  · simp; omega
  · omega

theorem decimal_length_long {x : Int} (h : -9223372036854775808 ≤ x ∧ x ≤ 9223372036854775807) : (Spec.decimal x).length ≤ 20 := by
  have := Spec.digits_length x.natAbs 19 (by omega) (by omega)
  unfold Spec.decimal
  split
  · simp; omega
  · omega

/-- The texts of the specification for a double, from those of the environment. -/
def envText (f : D → Int → Bytes) (v : D) (p : Option Nat) : Bytes := f v (prec p)

/-- The character of the specification. -/
theorem char_eq (v : Int) : (Utf8.chr v).getD [63] = Spec.Format.char v := by
  unfold Spec.Format.char
  split
  · rename_i h
    have := Utf8.chr_eq v.toNat h.2
    rw [show ((v.toNat : Nat) : Int) = v by omega] at this
    rw [this]; rfl
  · rename_i h
    have : Utf8.chr v = none := by
      refine Utf8.c19_chr.2 v (fun n hn he => h ⟨by omega, ?_⟩)
      rw [he]; exact hn
    rw [this]; rfl

theorem char_ne_nil (v : Int) : Spec.Format.char v ≠ [] := by
  unfold Spec.Format.char
  split
  · unfold Spec.Utf8.encode; repeat (first | split | simp)
  · simp

theorem pad_length (flags : List Flag) (signed : Bool) (w : Nat) (t : Bytes) :
    t.length ≤ (Spec.Format.pad flags signed w t).length := by
  unfold Spec.Format.pad
  simp only []
  have : t.length ≤ (if signed = true ∧ Flag.plus ∈ flags ∧ t.head? ≠ some 45 then 43 :: t else t).length := by
    split <;> simp
  split <;> simp only [List.length_append] <;> omega

theorem unsigned_lt (m : Nat) (hm : 0 < m) (v : Int) : Spec.Format.unsigned m v < m := by
  unfold Spec.Format.unsigned
  have := Int.emod_lt_of_pos v (b := (m : Int)) (by omega)
  have := Int.emod_nonneg v (b := (m : Int)) (by omega)
  omega

theorem length_u32 (v : Int) : (Spec.digits (Spec.Format.unsigned 4294967296 v)).length ≤ 10 :=
  Spec.digits_length _ 10 (by omega) (Nat.lt_of_lt_of_le (unsigned_lt _ (by omega) v) (by decide))
theorem length_u64 (v : Int) : (Spec.digits (Spec.Format.unsigned 18446744073709551616 v)).length ≤ 20 :=
  Spec.digits_length _ 20 (by omega) (Nat.lt_of_lt_of_le (unsigned_lt _ (by omega) v) (by decide))
theorem length_x32 (v : Int) : (Spec.Format.hex Spec.Format.lowerHex (Spec.Format.unsigned 4294967296 v)).length ≤ 8 :=
  hex_length _ _ 8 (by omega) (Nat.lt_of_lt_of_le (unsigned_lt _ (by omega) v) (by decide))
theorem length_x64 (v : Int) : (Spec.Format.hex Spec.Format.lowerHex (Spec.Format.unsigned 18446744073709551616 v)).length ≤ 16 :=
  hex_length _ _ 16 (by omega) (Nat.lt_of_lt_of_le (unsigned_lt _ (by omega) v) (by decide))

/-- One field is written as the specification says. -/
theorem emit_ok {D : Type} (E : Env D) {limit : Nat} (hlim : limit ≤ 2147483646) {flags : List Flag} {w : Nat} {p : Option Nat}
    {c : Spec.Format.Conv} {a : Arg D} {t xs : Bytes} (hw : w ≤ 2147483599) (hp : ∀ n, p = some n → n ≤ 2147483599) (ha : a.InRange)
    (hv : Spec.Format.value (envText E.textF) (envText E.textG) p c a = some t) (ho : Spec.Format.overruns p t c = false)
    (ht : t ≠ [])
    (h : 2 * (xs.length + (Spec.Format.pad flags c.signed (Spec.Format.effectiveWidth w p c a) t).length) ≤ limit) :
    Pushes limit xs (Spec.Format.pad flags c.signed (Spec.Format.effectiveWidth w p c a) t)
      (emit E limit (conv c) (flagsOf flags) w (prec p) p.isSome a) := by
  have hpl := pad_length flags c.signed (Spec.Format.effectiveWidth w p c a) t
  have hm32 : ∀ v : Int, (v % 4294967296).toNat = Spec.Format.unsigned 4294967296 v := fun _ => rfl
  have hm64 : ∀ v : Int, (v % 18446744073709551616).toNat = Spec.Format.unsigned 18446744073709551616 v := fun _ => rfl
  have hu32 : ∀ v : Int, Spec.Format.unsigned 4294967296 v < 4294967296 := by intro v; unfold Spec.Format.unsigned; omega
  have hu64 : ∀ v : Int, Spec.Format.unsigned 18446744073709551616 v < 18446744073709551616 := by
    intro v; unfold Spec.Format.unsigned; omega
  have hfg : ∀ t' : Bytes, Spec.Format.overruns p t' .f = false → nativeFG t' (prec p) = .ok t' := by
    intro t' ht'
    unfold nativeFG
    simp only [Spec.Format.overruns] at ht'
    cases p with
    | none =>
      simp only [decide_eq_false_iff_not] at ht'
      simp only [prec]
      rw [add32_ok (by unfold I32; omega), Out.ok_bind, add32_ok (by unfold I32; omega), Out.ok_bind, native_ok (by omega)]
    | some n =>
      simp only [decide_eq_false_iff_not] at ht'
      have := hp n rfl
      simp only [prec]
      rw [add32_ok (by unfold I32; omega), Out.ok_bind, add32_ok (by unfold I32; omega), Out.ok_bind, native_ok (by omega)]
  have key := pushes_signed (flags := flags) (signed := c.signed) hlim ht
    (w := Spec.Format.effectiveWidth w p c a) (xs := xs)
  intro b rest hr
  cases c <;> cases a <;> simp only [Spec.Format.value, reduceCtorEq, Option.some.injEq] at hv
  all_goals subst hv
  all_goals simp only [emit, conv, asInt, asLong, asChar, asDouble, asStr, Prog.lift_ok_bind, pushUnsigned]
  all_goals simp only [Spec.Format.Arg.InRange, Spec.Format.effectiveWidth, Spec.Format.Conv.signed, Bool.true_and, Bool.false_and,
    Spec.Format.overruns] at *
  -- c
  · rw [char_eq]; exact key (by omega) h b rest hr
  · rw [char_eq]; exact key (by omega) h b rest hr
  -- d
  · rw [nativeD, native_ok (by have := decimal_length_int ha; omega), Prog.lift_ok_bind]; exact key (by omega) h b rest hr
  -- f, g
  · rw [show E.textF _ _ = envText E.textF _ p from rfl, hfg _ ho, Prog.lift_ok_bind]; exact key (by omega) h b rest hr
  · rw [show E.textF _ _ = envText E.textF _ p from rfl, hfg _ ho, Prog.lift_ok_bind]; exact key (by omega) h b rest hr
  · rw [show E.textG _ _ = envText E.textG _ p from rfl, hfg _ ho, Prog.lift_ok_bind]; exact key (by omega) h b rest hr
  · rw [show E.textG _ _ = envText E.textG _ p from rfl, hfg _ ho, Prog.lift_ok_bind]; exact key (by omega) h b rest hr
  -- s
  · rename_i s
    cases p with
    | none =>
      rw [cutString, Option.isSome_none, if_neg (by simp), Prog.lift_ok_bind]
      simp only [] at *
      exact key (by omega) h b rest hr
    | some n =>
      simp only [] at *
      have := hp n rfl
      by_cases hn : n < s.length
      · simp only [if_pos hn] at h hpl key ⊢
        simp only [List.length_take] at hpl
        rw [cutString, Option.isSome_some, if_pos rfl, if_pos (by simp [prec]; omega)]
        simp only [prec]
        rw [Str.substr_ok (by omega) (by omega) (by omega) ha (by omega), Out.ok_bind, Prog.lift_ok_bind]
        have e : (s.drop (Int.toNat 0)).take (Int.toNat n) = s.take n := by simp
        simp only [e]
        exact key (by omega) h b rest hr
      · simp only [if_neg hn] at h key ⊢
        rw [List.take_of_length_le (by omega)] at *
        rw [cutString, Option.isSome_some, if_pos rfl, if_neg (by simp [prec]; omega), Prog.lift_ok_bind]
        exact key (by omega) h b rest hr
  -- u
  · rename_i v
    rw [nativeU, hm32, native_ok (by have := length_u32 v; omega), Prog.lift_ok_bind]
    exact key (by omega) h b rest hr
  -- x
  · rename_i v
    rw [nativeX, hm32, hexDigits_eq, native_ok (by have := length_x32 v; omega), Prog.lift_ok_bind]
    exact key (by omega) h b rest hr
  -- X
  · rename_i v
    have hul := congrArg List.length (hex_upper (Spec.Format.unsigned 4294967296 v))
    rw [List.length_map] at hul
    rw [nativeX, hm32, hexDigits_eq, native_ok (by have := length_x32 v; omega), Prog.lift_ok_bind,
      FnStr.uc, FnStr.mapString_ok (by omega), Prog.lift_ok_bind, hex_upper]
    exact key (by omega) h b rest hr
  -- ld
  · rw [nativeLd, native_ok (by have := decimal_length_long ha; omega), Prog.lift_ok_bind]; exact key (by omega) h b rest hr
  -- lu
  · rename_i v
    rw [nativeLu, hm64, native_ok (by have := length_u64 v; omega), Prog.lift_ok_bind]
    exact key (by omega) h b rest hr
  -- lx
  · rename_i v
    rw [nativeLx, hm64, hexDigits_eq, native_ok (by have := length_x64 v; omega), Prog.lift_ok_bind]
    exact key (by omega) h b rest hr
  -- lX
  · rename_i v
    have hul := congrArg List.length (hex_upper (Spec.Format.unsigned 18446744073709551616 v))
    rw [List.length_map] at hul
    rw [nativeLx, hm64, hexDigits_eq, native_ok (by have := length_x64 v; omega), Prog.lift_ok_bind,
      FnStr.uc, FnStr.mapString_ok (by omega), Prog.lift_ok_bind, hex_upper]
    exact key (by omega) h b rest hr

/-- An argument of another type throws. -/
theorem emit_type {D : Type} (E : Env D) (limit : Nat) (fl : Flags) (w : Int) {p : Option Nat} {c : Spec.Format.Conv} {a : Arg D}
    (hv : Spec.Format.value (envText E.textF) (envText E.textG) p c a = none) (b : StrBuf) :
    ∃ m, emit E limit (conv c) fl w (prec p) p.isSome a b = (.die m, b) := by
  cases c <;> cases a <;> simp only [Spec.Format.value, reduceCtorEq] at hv
  all_goals simp only [emit, conv, asInt, asLong, asChar, asDouble, asStr, Prog.lift_ok_bind, Prog.lift_die_bind, pushUnsigned]
  all_goals try exact ⟨_, rfl⟩
  -- undef for `%s`
  rcases p with _ | n
  · exact ⟨_, rfl⟩
  · rw [cutString, Option.isSome_some, if_pos rfl, if_neg (by simp [prec]), Prog.lift_ok_bind]
    exact ⟨_, rfl⟩

theorem signed_empty (limit : Nat) (w : Int) (pad : UInt8) (left plus : Bool) (b : StrBuf) :
    ∃ m, pushSigned limit (some []) w pad left plus b = (.die m, b) := ⟨_, rfl⟩

/-- An empty text throws. -/
theorem emit_empty {D : Type} (E : Env D) (limit : Nat) (fl : Flags) (w : Int) {p : Option Nat} {c : Spec.Format.Conv} {a : Arg D}
    (hp : ∀ n, p = some n → n ≤ 2147483599) (ha : a.InRange)
    (hv : Spec.Format.value (envText E.textF) (envText E.textG) p c a = some []) (b : StrBuf) :
    ∃ m, emit E limit (conv c) fl w (prec p) p.isSome a b = (.die m, b) := by
  have hfg : ∀ t' : Bytes, t' = [] → nativeFG t' (prec p) = .ok [] := by
    rintro _ rfl
    unfold nativeFG
    cases p with
    | none => rfl
    | some n =>
      have := hp n rfl
      simp only [prec]
      rw [add32_ok (by unfold I32; omega), Out.ok_bind, add32_ok (by unfold I32; omega), Out.ok_bind,
        native_ok (by simp; omega)]
  cases c <;> cases a <;> simp only [Spec.Format.value, reduceCtorEq, Option.some.injEq, char_ne_nil, decimal_ne_nil,
    digits_ne_nil, hex_ne_nil] at hv
  all_goals simp only [emit, conv, asDouble, asStr, Prog.lift_ok_bind, pushUnsigned]
  · unfold envText at hv; rw [hfg _ hv, Prog.lift_ok_bind]; exact signed_empty ..
  · unfold envText at hv; rw [hfg _ hv, Prog.lift_ok_bind]; exact signed_empty ..
  · unfold envText at hv; rw [hfg _ hv, Prog.lift_ok_bind]; exact signed_empty ..
  · unfold envText at hv; rw [hfg _ hv, Prog.lift_ok_bind]; exact signed_empty ..
  · rename_i s
    cases p with
    | none =>
      simp only [] at hv
      subst hv
      exact ⟨_, rfl⟩
    | some n =>
      simp only [] at hv
      have hs : (s.length : Int) ≤ 2147483647 := by unfold Spec.Format.Arg.InRange at ha; simp only [] at ha; omega
      simp only [prec, Option.isSome_some]
      by_cases hn : n < s.length
      · have h0 : n = 0 := by
          cases s with
          | nil => simp at hn
          | cons x s => cases n with
            | zero => rfl
            | succ n => simp at hv
        subst h0
        rw [cutString, if_pos rfl, if_pos (by simp; omega), Str.substr_ok (by omega) (by omega) (by omega) (by omega) (by omega),
          Out.ok_bind, Prog.lift_ok_bind]
        exact ⟨_, rfl⟩
      · rw [List.take_of_length_le (by omega)] at hv
        subst hv
        rw [cutString, if_pos rfl, if_neg (by simp), Prog.lift_ok_bind]
        exact ⟨_, rfl⟩

/-! ### The main loop -/

theorem flush_ok {limit : Nat} (hlim : limit ≤ 2147483646) {fmt A pend post xs : Bytes} (hf : fmt = A ++ (pend ++ post))
    (hl : fmt.length ≤ 2147483647) {index csl : Int} (hi : index = A.length) (hc : csl = pend.length)
    (h : 2 * (xs.length + pend.length) ≤ limit) {b : StrBuf} {rest : Bytes} (hr : Rep limit b xs rest) :
    ∃ b' rest', flush limit fmt index csl b = (.ok (A.length + pend.length : Int), b') ∧ Rep limit b' (xs ++ pend) rest' := by
  have hlen := congrArg List.length hf
  simp only [List.length_append] at hlen
  unfold flush
  by_cases h0 : pend = []
  · subst h0
    rw [if_neg (by simp at hc; omega)]
    exact ⟨b, rest, by simp [hi], by simpa using hr⟩
  · have : 0 < pend.length := List.length_pos_iff.mpr h0
    rw [if_pos (by omega), Str.substr_ok (by omega) (by omega) (by omega) (by omega) (by omega), Prog.lift_ok_bind]
    have e : (fmt.drop index.toNat).take csl.toNat = pend := by
      subst hf hi hc
      simp
    rw [e]
    obtain ⟨b', rest', e', hr'⟩ := pushes_push hlim h b rest hr
    rw [Prog.bind_ok e', add32_ok (by unfold I32; omega)]
    exact ⟨b', rest', by simp [hi, hc], hr'⟩

/-- The pieces with literal text split into single bytes. -/
def normal (ps : List Piece) : List Piece :=
  ps.flatMap fun
    | .lit t => t.map fun b => .lit [b]
    | p => [p]

theorem text_append (ps qs : List Piece) : Spec.Format.text (ps ++ qs) = Spec.Format.text ps ++ Spec.Format.text qs := by
  simp [Spec.Format.text]

theorem normal_text (ps : List Piece) : Spec.Format.text (normal ps) = Spec.Format.text ps := by
  induction ps with
  | nil => rfl
  | cons p ps ih =>
    have e : normal (p :: ps) = (match p with
      | .lit t => t.map fun b => Piece.lit [b]
      | p => [p]) ++ normal ps := by simp [normal]
    rw [e, text_append, ih]
    show _ = p.text ++ Spec.Format.text ps
    congr 1
    cases p with
    | lit t =>
      clear e
      simp only [Spec.Format.text, Spec.Format.Piece.text]
      induction t with
      | nil => rfl
      | cons b t iht => simp only [List.map_cons, List.flatMap_cons, iht]; simp [Spec.Format.Piece.text]
    | field fl w p c => simp [Spec.Format.text]

theorem normal_sprintf {D : Type} (F G : D → Option Nat → Bytes) (ps : List Piece) (as : List (Arg D)) :
    Spec.Format.sprintf F G (normal ps) as = Spec.Format.sprintf F G ps as := by
  induction ps generalizing as with
  | nil => rfl
  | cons p ps ih =>
    cases p with
    | lit t =>
      have e : normal (.lit t :: ps) = (t.map fun b => Piece.lit [b]) ++ normal ps := by simp [normal]
      rw [e]
      have : ∀ t : Bytes, Spec.Format.sprintf F G ((t.map fun b => Piece.lit [b]) ++ normal ps) as =
          (t ++ (Spec.Format.sprintf F G ps as).1, (Spec.Format.sprintf F G ps as).2) := by
        intro t
        induction t with
        | nil => simp [ih]
        | cons b t iht => simp [Spec.Format.sprintf, iht]
      rw [this]
      rfl
    | field fl w p c =>
      have e : normal (.field fl w p c :: ps) = .field fl w p c :: normal ps := by simp [normal]
      rw [e]
      cases as with
      | nil => rfl
      | cons a as => simp only [Spec.Format.sprintf, ih]

theorem normal_small {ps : List Piece} (h : ∀ q ∈ ps, q.Small) : ∀ q ∈ normal ps, q.Small ∧ ∀ t, q = .lit t → ∃ b, t = [b] := by
  intro q hq
  simp only [normal, List.mem_flatMap] at hq
  obtain ⟨p, hp, hq⟩ := hq
  cases p with
  | lit t =>
    simp only [List.mem_map] at hq
    obtain ⟨b, _, rfl⟩ := hq
    exact ⟨trivial, fun t ht => ⟨b, by simpa using ht.symm⟩⟩
  | field fl w p c =>
    simp only [List.mem_singleton] at hq
    subst hq
    exact ⟨h _ hp, fun t ht => by simp at ht⟩

theorem main_ok {D : Type} (E : Env D) {limit : Nat} (hlim : limit ≤ 2147483646) {fmt : Bytes} (hl : fmt.length ≤ 2147483647)
    (all : List (Arg D)) (hall : ∀ a ∈ all, a.InRange) :
    ∀ (ps : List Piece), (∀ q ∈ ps, q.Small ∧ ∀ t, q = .lit t → ∃ b, t = [b]) →
    ∀ (A pend xs : Bytes) (argc n : Nat) (index csl : Int), fmt = A ++ (pend ++ Spec.Format.text ps) → index = A.length → csl = pend.length →
      (Spec.Format.text ps).length < n →
      2 * (xs.length + pend.length + (Spec.Format.sprintf (envText E.textF) (envText E.textG) ps (all.drop argc)).1.length) ≤ limit →
    ∀ b rest, Rep limit b xs rest →
      ((Spec.Format.sprintf (envText E.textF) (envText E.textG) ps (all.drop argc)).2 = .returns →
        ∃ b' rest', mainLoop E limit fmt (some all) n index csl argc b = (.ok (), b') ∧
          Rep limit b' (xs ++ (pend ++ (Spec.Format.sprintf (envText E.textF) (envText E.textG) ps (all.drop argc)).1)) rest') ∧
      ((Spec.Format.sprintf (envText E.textF) (envText E.textG) ps (all.drop argc)).2 = .throws →
        ∃ m b', mainLoop E limit fmt (some all) n index csl argc b = (.die m, b')) := by
  intro ps
  induction ps with
  | nil =>
    intro _ A pend xs argc n index csl hf hi hc hn hlen b rest hr
    obtain ⟨m, rfl⟩ : ∃ m, n = m + 1 := ⟨n - 1, by omega⟩
    simp only [Spec.Format.sprintf, reduceCtorEq, false_implies, and_true, List.append_nil, true_implies, List.length_nil, Nat.add_zero] at *
    have hfl := congrArg List.length hf
    simp only [List.length_append, Spec.Format.text, List.flatMap_nil, List.length_nil] at hfl
    unfold mainLoop
    rw [add32_ok (by unfold I32; omega), Prog.lift_ok_bind, if_neg (by omega)]
    obtain ⟨b', rest', e, hr'⟩ := flush_ok hlim hf hl hi hc hlen hr
    rw [Prog.bind_ok e]
    exact ⟨b', rest', rfl, hr'⟩
  | cons q ps ih =>
    intro hps A pend xs argc n index csl hf hi hc hn hlen b rest hr
    obtain ⟨m, rfl⟩ : ∃ m, n = m + 1 := ⟨n - 1, by omega⟩
    have hps' : ∀ q ∈ ps, q.Small ∧ ∀ t, q = .lit t → ∃ b, t = [b] := fun q h => hps q (by simp [h])
    have htext : Spec.Format.text (q :: ps) = q.text ++ Spec.Format.text ps := by simp [Spec.Format.text]
    rw [htext] at hf hn
    have hfl := congrArg List.length hf
    simp only [List.length_append] at hfl hn
    unfold mainLoop
    rw [add32_ok (by unfold I32; omega), Prog.lift_ok_bind]
    cases q with
    | lit t =>
      obtain ⟨c, rfl⟩ := (hps (.lit t) (by simp)).2 t rfl
      simp only [Spec.Format.sprintf] at hlen ⊢
      simp only [List.length_append, List.length_singleton] at hlen
      by_cases hc37 : c = 37
      · subst hc37
        have ht : (Piece.lit [37]).text = [37, 37] := rfl
        rw [ht] at hf hfl hn
        simp only [List.length_cons, List.length_nil] at hfl hn
        have hf1 : fmt = (A ++ pend) ++ 37 :: (37 :: Spec.Format.text ps) := by rw [hf]; simp
        have hf2 : fmt = (A ++ pend ++ [37]) ++ 37 :: Spec.Format.text ps := by rw [hf]; simp
        have hf3 : fmt = A ++ ((pend ++ [37]) ++ (37 :: Spec.Format.text ps)) := by rw [hf]; simp
        have hg : aGet fmt (index + csl) = .ok 37 := by rw [hf1]; exact Hash.aGet_mid (by simp; omega)
        rw [if_pos (by omega), hg, Prog.lift_ok_bind, if_neg (by simp), add32_ok (by unfold I32; omega), Prog.lift_ok_bind,
          looksAt_mid hf2 (by simp; omega), Prog.lift_ok_bind, if_pos (by decide), add32_ok (by unfold I32; omega), Prog.lift_ok_bind]
        obtain ⟨b1, r1, e1, hr1⟩ := flush_ok hlim (xs := xs) hf3 hl hi (csl := csl + 1) (by simp; omega) (by simp; omega) hr
        rw [Prog.bind_ok e1, add32_ok (by unfold I32; simp; omega), Prog.lift_ok_bind]
        have := ih hps' (A ++ pend ++ [37, 37]) [] (xs ++ (pend ++ [37])) argc m _ 0 (by rw [hf]; simp) rfl rfl (by omega)
          (by simp; omega) b1 r1 hr1
        simp only [List.length_append, List.length_cons, List.length_nil] at this ⊢
        simp only [List.append_assoc, List.nil_append, List.cons_append] at this ⊢
        have ei : ((A.length : Int) + ((pend.length + (0 + 1) : Nat) : Int) + 1) = ((A.length + (pend.length + (0 + 1 + 1)) : Nat) : Int) := by
          push_cast; omega
        rw [ei]
        exact this
      · have ht : (Piece.lit [c]).text = [c] := by simp [Spec.Format.Piece.text, hc37]
        rw [ht] at hf hfl hn
        simp only [List.length_cons, List.length_nil] at hfl hn
        have hf1 : fmt = (A ++ pend) ++ c :: Spec.Format.text ps := by rw [hf]; simp
        have hg : aGet fmt (index + csl) = .ok c := by rw [hf1]; exact Hash.aGet_mid (by simp; omega)
        rw [if_pos (by omega), hg, Prog.lift_ok_bind, if_pos hc37, add32_ok (by unfold I32; omega), Prog.lift_ok_bind]
        have := ih hps' A (pend ++ [c]) xs argc m index (csl + 1) (by rw [hf]; simp) hi (by simp; omega) (by omega)
          (by simp; omega) b rest hr
        simpa using this
    | field fl w p c =>
      have hs := (hps (.field fl w p c) (by simp)).1
      obtain ⟨l, r, e, hl37⟩ : ∃ l r, fl.map Flag.char ++ (Spec.Format.widthText w ++ (Spec.Format.precisionText p ++ (c.letters ++ Spec.Format.text ps))) = l :: r ∧ l ≠ 37 := by
        cases fl with
        | nil =>
          obtain ⟨l, r, e, h⟩ := width_head w p c (Spec.Format.text ps)
          exact ⟨l, r, e, h.2.2.2⟩
        | cons f fl => exact ⟨f.char, _, rfl, by cases f <;> decide⟩
      have hf0 : fmt = A ++ (pend ++ 37 :: l :: r) := by rw [hf, ← e]; simp [Spec.Format.Piece.text]
      have hf1 : fmt = (A ++ pend) ++ 37 :: (l :: r) := by rw [hf0]; simp
      have hf2 : fmt = (A ++ pend ++ [37]) ++ l :: r := by rw [hf0]; simp
      have hf0l := congrArg List.length hf0
      simp only [List.length_append, List.length_cons] at hf0l
      have hg : aGet fmt (index + csl) = .ok 37 := by rw [hf1]; exact Hash.aGet_mid (by simp; omega)
      rw [if_pos (by omega), hg, Prog.lift_ok_bind, if_neg (by simp), add32_ok (by unfold I32; omega), Prog.lift_ok_bind,
        looksAt_mid hf2 (by simp; omega), Prog.lift_ok_bind, if_neg (by simpa using hl37), if_neg (by omega)]
      have hf3 : fmt = (A ++ pend) ++ ((Piece.field fl w p c).text ++ Spec.Format.text ps) := by rw [hf]; simp
      obtain ⟨b1, r1, e1, hr1⟩ := flush_ok hlim (xs := xs) (post := (Piece.field fl w p c).text ++ Spec.Format.text ps)
        (by rw [hf]) hl hi hc (by omega) hr
      have hrs := readSpec_at hf3 hl hs (i := (A.length + pend.length : Int)) (by simp)
      have hdo : ∀ (K : Int → Prog StrBuf Unit), ((doSpec E limit fmt (some all) index csl argc) >>= K) b =
          (do
            let a ← Prog.lift (nextArg (some all) argc)
            emit E limit (conv c) (flagsOf fl) w (prec p) p.isSome a
            K ((A.length + pend.length : Int) + (Piece.field fl w p c).text.length) : Prog StrBuf Unit) b1 := by
        intro K
        unfold doSpec
        simp only [Prog.bind_apply, e1, hrs, Prog.lift_apply, Prog.pure_apply]
        cases h1 : nextArg (some all) argc with
        | ok a =>
          simp only []
          rcases h2 : emit E limit (conv c) (flagsOf fl) w (prec p) p.isSome a b1 with ⟨_ | _ | _, b2⟩ <;> rfl
        | die => rfl
        | ub => rfl
      rw [hdo]
      cases hd : all.drop argc with
      | nil =>
        have hnone : all[argc]? = none := by
          rw [List.getElem?_eq_none_iff]
          exact List.drop_eq_nil_iff.mp hd
        have hna : nextArg (some all) argc = .die "Missing argument in sprintf." := by
          unfold nextArg; simp only [hnone]
        rw [hna, Prog.lift_die_bind]
        refine ⟨fun h => by simp [Spec.Format.sprintf] at h, fun _ => ⟨_, _, rfl⟩⟩
      | cons a as =>
        have hsome : all[argc]? = some a := by
          have h1 : (all.drop argc)[0]? = some a := by rw [hd]; rfl
          simpa using h1
        have has : all.drop (argc + 1) = as := by
          rw [← List.drop_drop, hd]; rfl
        have hna : nextArg (some all) argc = .ok a := by
          unfold nextArg; simp only [hsome]
        rw [hna, Prog.lift_ok_bind]
        have hain : a.InRange := hall a (List.mem_of_getElem? hsome)
        rw [hd] at hlen
        simp only [Spec.Format.sprintf] at hlen ⊢
        cases hv : Spec.Format.value (envText E.textF) (envText E.textG) p c a with
        | none =>
          obtain ⟨m', e'⟩ := emit_type E limit (flagsOf fl) w hv b1
          rw [Prog.bind_die e']
          exact ⟨fun h => by simp at h, fun _ => ⟨_, _, rfl⟩⟩
        | some t =>
          rw [hv] at hlen
          simp only [] at hlen ⊢
          by_cases ho : Spec.Format.overruns p t c = true
          · simp only [if_pos ho]
            exact ⟨fun h => by simp at h, fun h => by simp at h⟩
          · simp only [if_neg ho] at hlen ⊢
            by_cases ht : t = []
            · subst ht
              obtain ⟨m', e'⟩ := emit_empty E limit (flagsOf fl) w hs.2 hain hv b1
              rw [Prog.bind_die e', if_pos rfl]
              exact ⟨fun h => by simp at h, fun _ => ⟨_, _, rfl⟩⟩
            · simp only [if_neg ht] at hlen ⊢
              simp only [List.length_append] at hlen
              obtain ⟨b2, r2, e2, hr2⟩ := emit_ok E hlim (flags := fl) hs.1 hs.2 hain hv (by simpa using ho) ht (xs := xs ++ pend)
                (by simp only [List.length_append]; omega) b1 r1 hr1
              rw [Prog.bind_ok e2]
              have := ih hps' (A ++ pend ++ (Piece.field fl w p c).text) []
                (xs ++ pend ++ Spec.Format.pad fl c.signed (Spec.Format.effectiveWidth w p c a) t) (argc + 1) m
                ((A.length + pend.length : Int) + (Piece.field fl w p c).text.length) 0 (by rw [hf]; simp) (by simp; omega) rfl
                (by simp only [Spec.Format.Piece.text, List.length_cons] at hn; omega)
                (by rw [has]; simp only [List.length_append, List.length_nil]; omega) b2 r2 hr2
              rw [has] at this
              simpa using this

end Format
end SPVM
