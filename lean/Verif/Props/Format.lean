import Verif.Lemmas.Format
/-!
# C44: `sprintf`
-/
set_option linter.unusedSimpArgs false
set_option linter.unusedVariables false
set_option linter.constructorNameAsVariable false
namespace SPVM
namespace Format
open VM (Bytes)
open StrBuf (Rep)
open Spec.Format (Arg Piece Flag)

/-- **C44**: for every list of literal texts and fields, every argument list and every text of doubles, `sprintf` on the written
format returns the text of the specification when that says it returns, and throws when that says it throws (an argument is
missing, or of the wrong type, or has an empty text).  Memory must suffice for twice the text produced. -/
theorem c44_sprintf {D : Type} (E : Env D) {limit : Nat} (hlim : limit ≤ 2147483646) (ps : List Piece) (args : List (Arg D))
    (hs : ∀ q ∈ ps, q.Small) (hl : (Spec.Format.text ps).length ≤ 2147483647) (ha : ∀ a ∈ args, a.InRange)
    (hm : 2 * (Spec.Format.sprintf (envText E.textF) (envText E.textG) ps args).1.length ≤ limit) (hm4 : 4 ≤ limit) :
    ((Spec.Format.sprintf (envText E.textF) (envText E.textG) ps args).2 = .returns →
      sprintf E limit (some (Spec.Format.text ps)) (some args) =
        .ok (Spec.Format.sprintf (envText E.textF) (envText E.textG) ps args).1) ∧
    ((Spec.Format.sprintf (envText E.textF) (envText E.textG) ps args).2 = .throws →
      (sprintf E limit (some (Spec.Format.text ps)) (some args)).isDie) := by
  obtain ⟨b, k, e, hr⟩ := StrBuf.new_ok hlim none (-1) (by simp; omega)
  have hmain := main_ok E hlim hl args ha (normal ps) (normal_small hs) [] [] [] 0 ((Spec.Format.text ps).length + 1) 0 0
    (by rw [normal_text]; simp) rfl rfl (by rw [normal_text]; omega)
    (by rw [normal_sprintf, List.drop_zero]; simpa using hm) b _ (by simpa using hr)
  rw [normal_sprintf, List.drop_zero] at hmain
  unfold sprintf
  rw [e]
  simp only [Option.getD_some]
  constructor
  · intro h
    obtain ⟨b', rest', e', hr'⟩ := hmain.1 h
    rw [Prog.bind_ok e', StrBuf.toString_ok hlim hr']
    simp
  · intro h
    obtain ⟨m, b', e'⟩ := hmain.2 h
    rw [Prog.bind_die e']
    rfl

/-- An environment for the examples: doubles are their texts. -/
def sampleEnv : Env Bytes := { textF := fun d _ => d, textG := fun d _ => d, addr := fun _ => 0 }

/-- The hypotheses of `c44_sprintf` hold for `"a%%%-4d|%+05d%x"` with -3, 42 and -1. -/
example :
    let ps : List Piece := [.lit [97, 37], .field [.minus] 4 none .d, .lit [124], .field [.plus, .zero] 5 none .d, .field [] 0 none .x]
    let args : List (Arg Bytes) := [.int (-3), .int 42, .int (-1)]
    Spec.Format.text ps = "a%%%-4d|%+05d%x".toUTF8.toList ∧
    (∀ q ∈ ps, q.Small) ∧ (∀ a ∈ args, a.InRange) ∧
    Spec.Format.sprintf (envText sampleEnv.textF) (envText sampleEnv.textG) ps args = ("a%-3  |00+42ffffffff".toUTF8.toList, .returns) := by
  refine ⟨by decide +kernel, ?_, ?_, ?_⟩
  · intro q hq
    simp only [List.mem_cons, List.not_mem_nil, or_false] at hq
    rcases hq with rfl | rfl | rfl | rfl | rfl <;> simp [Spec.Format.Piece.Small]
  · intro a ha
    simp only [List.mem_cons, List.not_mem_nil, or_false] at ha
    rcases ha with rfl | rfl | rfl <;> simp [Spec.Format.Arg.InRange]
  · simp [Spec.Format.sprintf, Spec.Format.value, Spec.Format.overruns]
    decide +kernel

/-- **C44** (literal text): a text in which `%` is doubled comes back with single `%`, whatever the arguments. -/
theorem c44_literal {D : Type} (E : Env D) {limit : Nat} (hlim : limit ≤ 2147483646) (t : Bytes) (args : List (Arg D))
    (hl : 2 * t.length ≤ limit) (hm4 : 4 ≤ limit) (ha : ∀ a ∈ args, a.InRange) :
    sprintf E limit (some (t.flatMap fun b => if b = 37 then [37, 37] else [b])) (some args) = .ok t := by
  have e : Spec.Format.sprintf (envText E.textF) (envText E.textG) [.lit t] args = (t, .returns) := by
    simp [Spec.Format.sprintf]
  have hle : ∀ t : Bytes, (t.flatMap fun b => if b = 37 then [37, 37] else [b]).length ≤ 2 * t.length := by
    intro t
    induction t with
    | nil => simp
    | cons b t ih => simp only [List.flatMap_cons, List.length_append, List.length_cons]; split <;> simp at * <;> omega
  have := (c44_sprintf E hlim [.lit t] args (by simp [Spec.Format.Piece.Small])
    (by simp only [Spec.Format.text, List.flatMap_cons, List.flatMap_nil, List.append_nil, Spec.Format.Piece.text]; have := hle t; omega)
    ha (by rw [e]; exact hl) hm4).1 (by rw [e])
  rw [e] at this
  simpa [Spec.Format.text, Spec.Format.Piece.text] using this

/-- The hypotheses of `c44_literal` hold for `"5%"`. -/
example : sprintf sampleEnv 100 (some "5%%".toUTF8.toList) (some []) = .ok "5%".toUTF8.toList := by decide +kernel

/-- **C44** (width): a field other than `%s` is at least as wide as asked. -/
theorem c44_width {D : Type} (E : Env D) {limit : Nat} (hlim : limit ≤ 2147483646) (flags : List Flag) (w : Nat) (p : Option Nat)
    (c : Spec.Format.Conv) (hc : c ≠ .s) (a : Arg D) (t : Bytes)
    (hv : Spec.Format.value (envText E.textF) (envText E.textG) p c a = some t) (ht : t ≠ []) (ho : Spec.Format.overruns p t c = false)
    (hs : (Piece.field flags w p c).Small) (ha : a.InRange)
    (hl : (Piece.field flags w p c).text.length ≤ 2147483647) (hm : 2 * (max w (t.length + 1)) ≤ limit) (hm4 : 4 ≤ limit) :
    ∃ r, sprintf E limit (some (Piece.field flags w p c).text) (some [a]) = .ok r ∧ w ≤ r.length ∧ t <:+: r := by
  have hw : Spec.Format.effectiveWidth w p c a = w := by
    cases c <;> first | rfl | exact absurd rfl hc
  have e : Spec.Format.sprintf (envText E.textF) (envText E.textG) [.field flags w p c] [a] =
      (Spec.Format.pad flags c.signed w t, .returns) := by
    simp [Spec.Format.sprintf, hv, ho, ht, hw]
  have hpl : (Spec.Format.pad flags c.signed w t).length ≤ max w (t.length + 1) ∧ w ≤ (Spec.Format.pad flags c.signed w t).length ∧
      t <:+: Spec.Format.pad flags c.signed w t := by
    unfold Spec.Format.pad
    simp only []
    have h1 : (if c.signed = true ∧ Flag.plus ∈ flags ∧ t.head? ≠ some 45 then 43 :: t else t).length ≤ t.length + 1 := by
      split <;> simp
    have h2 : t <:+: (if c.signed = true ∧ Flag.plus ∈ flags ∧ t.head? ≠ some 45 then 43 :: t else t) := by
      split
      · exact (List.suffix_cons _ _).isInfix
      · exact List.infix_refl t
    generalize (if c.signed = true ∧ Flag.plus ∈ flags ∧ t.head? ≠ some 45 then 43 :: t else t) = u at h1 h2
    split
    · exact ⟨by simp; omega, by simp; omega, h2.trans (List.prefix_append _ _).isInfix⟩
    · exact ⟨by simp; omega, by simp; omega, h2.trans (List.suffix_append _ _).isInfix⟩
  have := (c44_sprintf E hlim [.field flags w p c] [a] (by simpa using hs) (by simpa [Spec.Format.text] using hl)
    (by simpa using ha) (by rw [e]; simp only []; omega) hm4).1 (by rw [e])
  rw [e] at this
  exact ⟨_, by simpa [Spec.Format.text] using this, hpl.2.1, hpl.2.2⟩

/-- A case for `c44_width`. -/
example : sprintf sampleEnv 100 (some "%+6d".toUTF8.toList) (some [.int 7]) = .ok "    +7".toUTF8.toList := by decide +kernel

/-- **C44** (malformed formats): a single `%` at the end of the format throws. -/
theorem c44_dangling {D : Type} (E : Env D) {limit : Nat} (h4 : 4 ≤ limit) (hlim : limit ≤ 2147483646) (args : Option (List (Arg D))) :
    (sprintf E limit (some [37]) args).isDie := by
  obtain ⟨b, k, e, hr⟩ := StrBuf.new_ok (limit := limit) (by omega) none (-1) (by simp; omega)
  unfold sprintf
  rw [e]
  rfl

/-- **C44** (malformed formats): a specifier whose letter is no conversion throws, whatever follows it. -/
theorem c44_bad_specifier {D : Type} (E : Env D) {limit : Nat} (h4 : 4 ≤ limit) (hlim : limit ≤ 2147483646) (c : UInt8) (post : Bytes)
    (hl : (37 :: c :: post).length ≤ 2147483647)
    (hc : ∀ k : Spec.Format.Conv, k.letters.head? ≠ some c) (hp : c ≠ 112) (hf : ∀ f : Flag, f.char ≠ c) (hd : c.toNat < 48 ∨ 57 < c.toNat)
    (hdot : c ≠ 46) (hpc : c ≠ 37) (args : Option (List (Arg D))) :
    (sprintf E limit (some (37 :: c :: post)) args).isDie := by
  obtain ⟨b, k, e, hr⟩ := StrBuf.new_ok (limit := limit) (by omega) none (-1) (by simp; omega)
  have h : ∀ k : Spec.Format.Conv, ∀ x, k.letters.head? = some x → ¬ c = x := fun k x hk hx => hc k (by rw [hk, hx])
  have hrc : ∀ fmt i, readConv fmt c i = .ok (i, .bad) := by
    intro fmt i
    unfold readConv
    rw [if_neg (h .X _ rfl), if_neg (h .c _ rfl), if_neg (h .d _ rfl), if_neg (h .f _ rfl), if_neg (h .g _ rfl),
      if_neg (h .ld _ rfl), if_neg hp, if_neg (h .s _ rfl), if_neg (h .u _ rfl), if_neg (h .x _ rfl)]
  have hl' : (37 :: c :: post : Bytes).length = post.length + 2 := by simp
  have hrs : readSpec (37 :: c :: post) 0 = .ok (2, {}, 0, -1, false, .bad) := by
    unfold readSpec
    rw [add32_ok (by unfold I32; omega), Out.ok_bind,
      flagLoop_at (fmt := 37 :: c :: post) (pre := [37]) (flags := []) (rest := c :: post) (i := 0 + 1) rfl
        ⟨c, post, rfl, (hf .zero).symm, (hf .plus).symm, (hf .minus).symm⟩ hl rfl, Out.ok_bind]
    simp only [List.foldl_nil, List.length_nil]
    rw [numLoop_at (fmt := 37 :: c :: post) (pre := [37]) (ds := []) (rest := c :: post) (i := 0 + 1 + ((0 : Nat) : Int)) rfl ⟨c, post, rfl, hd⟩ hl (by simp) (by simp) (by simp), Out.ok_bind]
    have hrp : readPrecision (37 :: c :: post) 1 = .ok (1, -1, false) := by
      unfold readPrecision
      rw [looksAt_mid (fmt := 37 :: c :: post) (pre := [37]) (c := c) (rest := post) (i := 1) rfl rfl, Out.ok_bind, if_neg (by simpa using hdot)]
    have e1 : (0 + 1 + ((0 : Nat) : Int) + (([] : Bytes).length : Int)) = 1 := rfl
    simp only [e1, hrp, Out.ok_bind]
    rw [if_neg (fun hn => hn (by rw [hl']; omega)), show aGet (37 :: c :: post) 1 = .ok c from rfl, Out.ok_bind, add32_ok (by unfold I32; omega),
      Out.ok_bind, hrc]
    rfl
  unfold sprintf
  rw [e]
  simp only [Option.getD_some]
  have hm : ∃ m b', mainLoop E limit (37 :: c :: post) args ((37 :: c :: post : Bytes).length + 1) 0 0 0 b = (.die m, b') := by
    unfold mainLoop
    rw [add32_ok (by unfold I32; omega), Prog.lift_ok_bind, if_pos (by rw [hl']; omega),
      show aGet (37 :: c :: post) (0 + 0) = .ok 37 from rfl, Prog.lift_ok_bind, if_neg (by simp), add32_ok (by unfold I32; omega),
      Prog.lift_ok_bind, looksAt_mid (fmt := 37 :: c :: post) (pre := [37]) (c := c) (rest := post) (i := 0 + 0 + 1) rfl rfl, Prog.lift_ok_bind, if_neg (by simpa using hpc),
      if_neg (by rw [hl']; omega)]
    have hdo : ∃ m b', doSpec E limit (37 :: c :: post) args 0 0 0 b = (.die m, b') := by
      unfold doSpec flush
      rw [if_neg (by omega), Prog.pure_bind_apply]
      cases hn : nextArg args 0 with
      | ok a => rw [Prog.lift_ok_bind, hrs, Prog.lift_ok_bind]; exact ⟨_, _, rfl⟩
      | die m => exact ⟨_, _, rfl⟩
      | ub =>
        unfold nextArg at hn
        split at hn
        · simp at hn
        · split at hn <;> simp at hn
    obtain ⟨m, b', e'⟩ := hdo
    rw [Prog.bind_die e']
    exact ⟨_, _, rfl⟩
  obtain ⟨m, b', e'⟩ := hm
  rw [Prog.bind_die e']
  rfl

/-- A case for `c44_bad_specifier`: `"%q"`. -/
example : (sprintf sampleEnv 100 (some "%q".toUTF8.toList) (some [.int 1])).isDie := by decide +kernel

/-- **C44** (zeros go in front of the sign): in C `%05d` of -3 is `-0003`. -/
theorem c44_zero_pad_violated :
    sprintf sampleEnv 100 (some "%05d".toUTF8.toList) (some [.int (-3)]) = .ok "000-3".toUTF8.toList := by decide +kernel

/-- **C44** (the width of a cut string is lost): `%5.2s` of `abc` is two bytes wide, not five. -/
theorem c44_width_violated :
    sprintf sampleEnv 100 (some "%5.2s".toUTF8.toList) (some [.str "abc".toUTF8.toList]) = .ok "ab".toUTF8.toList := by decide +kernel

/-- **C44** (the empty string cannot be formatted): `%s` of `""` throws. -/
theorem c44_empty_string_violated :
    (sprintf sampleEnv 100 (some "%s".toUTF8.toList) (some [.str []])).isDie := by decide +kernel

/-- **C44** (long numbers are read past their buffer): every double whose text is longer than 21 bytes makes `%f` read
memory it does not own. -/
theorem c44_long_double_violated {D : Type} (E : Env D) (d : D) (h : 21 < (E.textF d (-1)).length) :
    sprintf E 100 (some "%f".toUTF8.toList) (some [.double d]) = .ub := by
  have hn : nativeFG (E.textF d (-1)) (-1) = .ub := by
    unfold nativeFG
    rw [add32_ok (by unfold I32; omega), Out.ok_bind, add32_ok (by unfold I32; omega), Out.ok_bind, native, if_neg (by omega)]
  have hb : ∀ (b : StrBuf), doSpec E 100 [37, 102] (some [.double d]) 0 0 0 b = (.ub, b) := by
    intro b
    unfold doSpec flush
    rw [if_neg (by omega), Prog.pure_bind_apply, show nextArg (some [Arg.double d]) 0 = .ok (.double d) from rfl, Prog.lift_ok_bind,
      show readSpec [37, 102] 0 = .ok (2, {}, 0, -1, false, .f) from rfl, Prog.lift_ok_bind]
    simp only [emit, asDouble]
    rw [Prog.bind_apply, Prog.lift_ok_bind, hn]
    rfl
  have e : "%f".toUTF8.toList = [37, 102] := by decide +kernel
  obtain ⟨b, k, eb, hr⟩ := StrBuf.new_ok (limit := 100) (by omega) none (-1) (by decide)
  rw [e]
  unfold sprintf
  rw [eb]
  simp only [Option.getD_some]
  have : mainLoop E 100 [37, 102] (some [.double d]) (([37, 102] : Bytes).length + 1) 0 0 0 b = (.ub, b) := by
    show ((doSpec E 100 [37, 102] (some [.double d]) 0 0 0) >>= _) b = _
    rw [Prog.bind_apply, hb]
  rw [Prog.bind_apply, this]

/-- Such a text: 1e15 printed with `%f` has 23 bytes. -/
example : sprintf sampleEnv 100 (some "%f".toUTF8.toList) (some [.double "1000000000000000.000000".toUTF8.toList]) = .ub := by decide +kernel

/-- **C44** (widths overflow): a width beyond 2147483599 is a signed overflow. -/
theorem c44_width_overflow_violated :
    sprintf sampleEnv 100 (some "%2147483600d".toUTF8.toList) (some [.int 1]) = .ub := by decide +kernel

end Format
end SPVM
