import Verif.Lemmas.Literal
/-!
# C59: numeric literals denote the number that is written
-/
namespace SPVM
namespace Literal
open VM (Bytes)
open Spec (Prefix Body LitEnd IntSuffix Minus intMeaning noUnderlines Denotes FloatText HasPoint DigitsU)
open NumStr (isDig vb)

/-- The constant of type `int` (32 bits) or `long` (64 bits). -/
def IntConst (bits : Nat) (z : Int) (c : Const) : Prop := (bits = 32 ∧ c = .int z) ∨ (bits = 64 ∧ c = .long z)

/-! ## Lemmas -/

theorem lexNum_sign {lc : Libc} {sg src : Bytes} {neg : Bool} (hs : Minus sg neg) {d : UInt8} {t : Bytes} (he : src = d :: t)
    (hd : isDec d = true) : lexNum lc (sg ++ src) = mapOut some (numLit lc neg src) := by
  subst he
  rcases hs with ⟨rfl, rfl⟩ | ⟨rfl, rfl⟩
  · simp [lexNum, hd]
  · have h45 : isDec 45 = false := by decide
    simp [lexNum, hd, h45]

theorem literal_head {base n : Nat} {pre body : Bytes} (hp : Prefix base pre) (hb : Body base body n) (r : Bytes) :
    ∃ d t, pre ++ body ++ r = d :: t ∧ isDec d = true := by
  rcases hp with ⟨_, rfl | rfl⟩ | ⟨_, rfl | rfl⟩ | ⟨_, rfl⟩ | ⟨rfl, rfl⟩
  · exact ⟨48, _, rfl, by decide⟩
  · exact ⟨48, _, rfl, by decide⟩
  · exact ⟨48, _, rfl, by decide⟩
  · exact ⟨48, _, rfl, by decide⟩
  · exact ⟨48, _, rfl, by decide⟩
  · rcases hb.2 rfl with rfl | ⟨d, t, rfl, _, h95⟩
    · exact ⟨48, _, rfl, by decide⟩
    · refine ⟨d, _, rfl, ?_⟩
      rcases body_mem hb.1 d (by simp) with h | h
      · exact isDig_dec (by omega) h
      · exact absurd h h95

theorem prefix_base {base : Nat} {pre : Bytes} (hp : Prefix base pre) : base = 2 ∨ base = 8 ∨ base = 10 ∨ base = 16 := by
  rcases hp with ⟨h, _⟩ | ⟨h, _⟩ | ⟨h, _⟩ | ⟨h, _⟩ <;> omega

/-- The literal is the constant of its digits. -/
theorem lexNum_int {lc : Libc} {bits base n : Nat} {sg pre body sfx rest : Bytes} {neg : Bool} (hp : Prefix base pre)
    (hb : Body base body n) (hs : IntSuffix bits sfx) (hg : Minus sg neg) (he : LitEnd rest) :
    ∃ text, text.drop (startOffset base) = noUnderlines body ∧ lexNum lc (sg ++ (pre ++ body ++ sfx ++ rest)) =
      if bits = 32 then mapOut (fun z => some (.int z, rest)) (intValue 2147483648 msgInt base neg text)
      else mapOut (fun z => some (.long z, rest)) (intValue 9223372036854775808 msgLong base neg text) := by
  have hsuf : SufInt (if bits = 32 then .int else .long) sfx := by
    rcases hs with ⟨rfl, h⟩ | ⟨rfl, h⟩
    · exact .inl ⟨rfl, h⟩
    · exact .inr ⟨rfl, h⟩
  obtain ⟨h1, text, h2, h3⟩ := scan_int (rest := rest) hp hb hsuf he
  obtain ⟨d, t, hd1, hd2⟩ := literal_head hp hb (sfx ++ rest)
  refine ⟨text, h3, ?_⟩
  rw [lexNum_sign hg (by rw [← hd1]; simp) hd2]
  unfold numLit
  rw [h2, h1]
  simp only [suffix_int hsuf he]
  by_cases hbits : bits = 32
  · simp only [if_pos hbits, const]
    cases intValue 2147483648 msgInt base neg text <;> rfl
  · simp only [if_neg hbits, const]
    cases intValue 9223372036854775808 msgLong base neg text <;> rfl

/-- A value, or the compilation error. -/
def orDie (msg : String) : Option Int → Out Int
  | some z => .ok z
  | none => .die msg

theorem intValue_meaning {half bits base n : Nat} {msg : String} {neg : Bool} {text ds : Bytes}
    (hh : (half = 2147483648 ∧ bits = 32) ∨ (half = 9223372036854775808 ∧ bits = 64))
    (hb : base = 2 ∨ base = 8 ∨ base = 10 ∨ base = 16) (hd : text.drop (startOffset base) = ds) (hden : Denotes base ds n)
    (hl : base = 10 ∨ neg = false ∨ n % 2 ^ bits ≠ 2 ^ (bits - 1)) :
    intValue half msg base neg text = orDie msg (intMeaning bits base neg n) := by
  have hp : half = 2 ^ (bits - 1) ∧ 2 * half = 2 ^ bits ∧ ((2 * half : Nat) : Int) = 2 ^ bits := by
    rcases hh with ⟨rfl, rfl⟩ | ⟨rfl, rfl⟩ <;> decide
  obtain ⟨v1, v2, _⟩ := intValue_digits (half := half) (msg := msg) (minus := neg)
    (by rcases hh with ⟨h, _⟩ | ⟨h, _⟩; exact .inl h; exact .inr h) hb hd hden
  unfold intMeaning
  by_cases h10 : base = 10
  · rw [v1 h10, if_pos h10, ← hp.1]
    cases neg
    · simp only [Bool.false_eq_true, if_false]; split <;> rfl
    · simp only [if_true]; split <;> rfl
  · rw [v2 h10 (fun hn => by rw [hp.2.1, hp.1]; simpa [h10, hn] using hl), if_neg h10, ← hp.1, ← hp.2.1, ← hp.2.2]
    split <;> rfl

/-! ## The theorems -/

/-- An integer literal in decimal, hexadecimal, octal or binary notation, with underlines, a minus and the suffix of `long`, is
the constant it denotes, and the tokenizer goes on with the text after it.  A literal that denotes a number outside of the
range of its type is a compilation error.  Left out are the literals with a minus whose bits are those of the least value of
the type (see `literal_least_violated`). -/
theorem literal_int_partial (lc : Libc) {bits base n : Nat} {sg pre body sfx rest : Bytes} {neg : Bool}
    (hp : Prefix base pre) (hb : Body base body n) (hs : IntSuffix bits sfx) (hg : Minus sg neg) (he : LitEnd rest)
    (hl : base = 10 ∨ neg = false ∨ n % 2 ^ bits ≠ 2 ^ (bits - 1)) :
    (∀ z, intMeaning bits base neg n = some z →
      ∃ c, IntConst bits z c ∧ lexNum lc (sg ++ (pre ++ body ++ sfx ++ rest)) = .ok (some (c, rest))) ∧
    (intMeaning bits base neg n = none → ∃ m, lexNum lc (sg ++ (pre ++ body ++ sfx ++ rest)) = .die m) := by
  obtain ⟨text, h1, h2⟩ := lexNum_int (lc := lc) hp hb hs hg he
  rw [h2]
  have hbase := prefix_base hp
  rcases hs with ⟨rfl, _⟩ | ⟨rfl, _⟩
  · rw [if_pos rfl, intValue_meaning (.inl ⟨rfl, rfl⟩) hbase h1 hb.1 hl]
    exact ⟨fun z hz => ⟨.int z, .inl ⟨rfl, rfl⟩, by rw [hz]; rfl⟩, fun hz => ⟨msgInt, by rw [hz]; rfl⟩⟩
  · rw [if_neg (by decide), intValue_meaning (.inr ⟨rfl, rfl⟩) hbase h1 hb.1 hl]
    exact ⟨fun z hz => ⟨.long z, .inr ⟨rfl, rfl⟩, by rw [hz]; rfl⟩, fun hz => ⟨msgLong, by rw [hz]; rfl⟩⟩

/-- `-0x7F_ffL;` is the constant -32767 of type `long`. -/
example (lc : Libc) : lexNum lc [45, 48, 120, 55, 70, 95, 102, 102, 76, 59] = .ok (some (.long (-32767), [59])) := by
  have hb : Body 16 [55, 70, 95, 102, 102] 32767 :=
    ⟨Spec.Denotes.snoc (n := 2047) (d := 15) (ds := [55, 70, 102])
      (Spec.Denotes.snoc (n := 127) (d := 15) (ds := [55, 70])
        (Spec.Denotes.snoc (n := 7) (d := 15) (ds := [55]) (.one rfl (by decide)) rfl (by decide)) rfl (by decide))
      rfl (by decide), by simp⟩
  obtain ⟨c, hc, h⟩ := (literal_int_partial lc (bits := 64) (sfx := [76]) (rest := [59]) (.inl ⟨rfl, .inl rfl⟩) hb (.inr ⟨rfl, .inl rfl⟩)
    (.inr ⟨rfl, rfl⟩) (by intro b r h; simp at h; rw [← h.1]; unfold Spec.IsWord; decide) (.inr (.inr (by decide)))).1 (-32767) (by decide)
  rcases hc with ⟨h', _⟩ | ⟨_, rfl⟩
  · cases h'
  · exact h

/-- The sign of a hexadecimal, octal or binary literal is applied with a signed negation: the literals with a minus whose bits
are those of the least value, like `-0x80000000`, are undefined behaviour of the compiler.  The documentation allows the minus
and gives no error for them. -/
theorem literal_least_violated (lc : Libc) {bits base n : Nat} {pre body sfx rest : Bytes}
    (hp : Prefix base pre) (hb : Body base body n) (hs : IntSuffix bits sfx) (he : LitEnd rest)
    (h10 : base ≠ 10) (hn : n = 2 ^ (bits - 1)) :
    lexNum lc ([45] ++ (pre ++ body ++ sfx ++ rest)) = .ub := by
  obtain ⟨text, h1, h2⟩ := lexNum_int (lc := lc) (neg := true) hp hb hs (.inr ⟨rfl, rfl⟩) he
  rw [h2]
  rcases hs with ⟨rfl, _⟩ | ⟨rfl, _⟩
  · rw [if_pos rfl, (intValue_digits (.inl rfl) (prefix_base hp) h1 hb.1).2.2 h10 rfl (by subst hn; decide) (by subst hn; decide)]
    rfl
  · rw [if_neg (by decide), (intValue_digits (.inr rfl) (prefix_base hp) h1 hb.1).2.2 h10 rfl (by subst hn; decide) (by subst hn; decide)]
    rfl

/-- `-0x80000000;` and `-01000000000000000000000L;` -/
example (lc : Libc) : lexNum lc [45, 48, 120, 56, 48, 48, 48, 48, 48, 48, 48, 59] = .ub ∧
    lexNum lc ([45, 48, 49] ++ List.replicate 21 48 ++ [76, 59]) = .ub := ⟨rfl, rfl⟩

/-! ## Every source -/

theorem scanHex_append : ∀ (e : Bool) (s : Bytes), (scanHex e s).1 ++ (scanHex e s).2 = s
  | _, [] => rfl
  | e, b :: s => by
    rw [scanHex]
    split
    · split
      · rfl
      · simp only [List.cons_append, scanHex_append _ s]
    · rfl

theorem scanOct_append : ∀ (s : Bytes), (scanOct s).1 ++ (scanOct s).2 = s
  | [] => rfl
  | b :: s => by
    rw [scanOct]
    split
    · simp only [List.cons_append, scanOct_append s]
    · rfl

theorem scanDec_append : ∀ (e : Bool) (s : Bytes), (scanDec e s).1 ++ (scanDec e s).2 = s
  | _, [] => rfl
  | e, b :: s => by
    rw [scanDec]
    split
    · split
      · rfl
      · simp only [List.cons_append, scanDec_append _ s]
    · rfl

theorem scan16_rest : ∀ {src : Bytes} {s : Scanned}, scan16 src = .ok s → ∃ b tk, src = b :: tk ++ s.rest
  | [], _, h => by cases h
  | [_], _, h => by cases h
  | [_, _], _, h => by cases h
  | b0 :: b1 :: b2 :: src, s, h => by
    have ha := scanHex_append false src
    simp only [scan16] at h
    generalize (scanHex false src).1 = l at *
    generalize (scanHex false src).2 = r at *
    split at h
    · cases h
      have hne : (b1 :: b2 :: l) ≠ [] := by simp
      refine ⟨b0, (b1 :: b2 :: l).dropLast, ?_⟩
      have hl : (b0 :: b1 :: b2 :: l).getLastD 0 = (b1 :: b2 :: l).getLast hne := by
        rw [List.getLastD_eq_getLast?, List.getLast?_eq_some_getLast (by simp), Option.getD_some, List.getLast_cons hne]
      simp only [hl]
      have hc := List.dropLast_concat_getLast hne
      generalize (b1 :: b2 :: l).getLast hne = x at *
      generalize (b1 :: b2 :: l).dropLast = y at *
      have e : b0 :: y ++ x :: r = b0 :: ((y ++ [x]) ++ r) := by simp
      rw [e, hc, ← ha]; rfl
    · cases h
      exact ⟨b0, b1 :: b2 :: l, by rw [← ha]; rfl⟩

theorem scan8_rest : ∀ {src : Bytes} {s : Scanned}, scan8 src = .ok s → ∃ b tk, src = b :: tk ++ s.rest
  | [], _, h => by cases h
  | [_], _, h => by cases h
  | b0 :: b1 :: src, s, h => by
    cases h
    exact ⟨b0, b1 :: (scanOct src).1, by simp [scanOct_append]⟩

theorem scan10_rest : ∀ {src : Bytes} {s : Scanned}, scan10 src = .ok s → ∃ b tk, src = b :: tk ++ s.rest
  | [], _, h => by cases h
  | b0 :: src, s, h => by
    cases h
    exact ⟨b0, (scanDec false src).1, by simp [scanDec_append]⟩

theorem scan_rest {src : Bytes} {s : Scanned} (h : scan src = .ok s) : ∃ b tk, src = b :: tk ++ s.rest := by
  unfold scan at h
  split at h
  · exact scan16_rest h
  · split at h
    · exact scan8_rest h
    · exact scan10_rest h

theorem suffix_rest (f : Bool) (r : Bytes) : ∃ t, r = t ++ (suffix f r).2 := by
  cases r with
  | nil => exact ⟨[], rfl⟩
  | cons b bs =>
    simp only [suffix]
    split
    · exact ⟨[b], rfl⟩
    · split
      · exact ⟨[b], rfl⟩
      · split
        · exact ⟨[b], rfl⟩
        · exact ⟨[], rfl⟩

/-- Every source: a numeric literal takes at least one character, and what the tokenizer goes on with is the source after it. -/
theorem literal_consumes (lc : Libc) {src rest : Bytes} {c : Const} (h : lexNum lc src = .ok (some (c, rest))) :
    ∃ b tk, src = b :: tk ++ rest := by
  have key : ∀ {neg s}, mapOut some (numLit lc neg s) = .ok (some (c, rest)) → ∃ b tk, s = b :: tk ++ rest := by
    intro neg s h
    unfold numLit at h
    cases hs : scan s with
    | ub => rw [hs] at h; cases h
    | die m => rw [hs] at h; cases h
    | ok sc =>
      rw [hs] at h
      simp only at h
      obtain ⟨b, tk, hb⟩ := scan_rest hs
      obtain ⟨t, ht⟩ := suffix_rest sc.floating sc.rest
      cases hc : const lc (baseOf s) neg sc.text (suffix sc.floating sc.rest).1 with
      | ub => rw [hc] at h; cases h
      | die m => rw [hc] at h; cases h
      | ok k =>
        rw [hc] at h
        simp only [mapOut, Out.ok.injEq, Option.some.injEq, Prod.mk.injEq] at h
        refine ⟨b, tk ++ t, ?_⟩
        rw [← h.2, hb]
        conv => lhs; rw [ht]
        simp
  unfold lexNum at h
  cases src with
  | nil => cases h
  | cons b bs =>
    simp only at h
    split at h
    · exact key h
    · split at h
      · cases bs with
        | nil => cases h
        | cons c' bs' =>
          simp only at h
          split at h
          · obtain ⟨b', tk, hb⟩ := key h
            exact ⟨b, b' :: tk, by rw [hb]; rfl⟩
          · cases h
      · cases h

theorem intValue_pos {half base : Nat} {msg : String} {text : Bytes} {neg : Bool} (h : neg = false ∨ base = 10) :
    intValue half msg base neg text ≠ .ub := by
  unfold intValue
  simp only
  generalize (if (strtoull (text.drop (startOffset base)) base).rest ≠ [] then true else _ : Bool) = o
  split
  · cases o <;> simp
  · simp
  · rename_i hv
    rcases h with rfl | rfl
    · exfalso
      simp only [Bool.false_eq_true, if_false] at hv
      split at hv <;> cases hv
    · exfalso
      simp at hv
      split at hv <;> cases hv

/-- Every source: reading a numeric literal has no undefined behaviour, except for `0x` at the end of the source and for a
minus before a hexadecimal, octal or binary literal. -/
theorem literal_safe_partial (lc : Libc) {src : Bytes} (hx : src ≠ [48, 120] ∧ src ≠ [48, 88])
    (hm : ∀ t, src ≠ 45 :: 48 :: t) : lexNum lc src ≠ .ub := by
  have key : ∀ {neg s}, (neg = false ∧ s ≠ [48, 120] ∧ s ≠ [48, 88] ∨ ∀ t, s ≠ 48 :: t) → s ≠ [] → numLit lc neg s ≠ .ub := by
    intro neg s hs hne
    have hb10 : (∀ t, s ≠ 48 :: t) → baseOf s = 10 := by
      intro h
      unfold baseOf
      split
      · rename_i b0 b1 t
        have : b0 ≠ 48 := fun hb => h (b1 :: t) (by rw [hb])
        rw [if_neg this]
      · rfl
    have hscan : ∃ sc, scan s = .ok sc := by
      unfold scan
      split
      · rename_i h16
        unfold scan16
        split
        · dsimp only
          split <;> exact ⟨_, rfl⟩
        · rename_i hn
          exfalso
          match s, hne with
          | [a], _ => simp [baseOf] at h16
          | [a, b], _ =>
            simp only [baseOf] at h16
            split at h16
            · split at h16
              · rename_i ha hb
                subst ha
                rcases hs with ⟨_, h1, h2⟩ | h
                · rcases hb with rfl | rfl
                  · exact h1 rfl
                  · exact h2 rfl
                · exact h _ rfl
              · split at h16
                · cases h16
                · split at h16 <;> cases h16
            · cases h16
          | a :: b :: c :: r, _ => exact hn a b c r rfl
      · split
        · rename_i h8
          unfold scan8
          split
          · exact ⟨_, rfl⟩
          · rename_i hn
            exfalso
            match s, hne with
            | [a], _ => simp [baseOf] at h8
            | a :: b :: r, _ => exact hn a b r rfl
        · unfold scan10
          split
          · exact ⟨_, rfl⟩
          · rename_i hn
            exfalso
            match s, hne with
            | a :: r, _ => exact hn a r rfl
    obtain ⟨sc, hsc⟩ := hscan
    unfold numLit
    rw [hsc]
    simp only
    have hpos : ∀ half msg, intValue half msg (baseOf s) neg sc.text ≠ .ub := by
      intro half msg
      apply intValue_pos
      rcases hs with ⟨h, _⟩ | h
      · exact .inl h
      · exact .inr (hb10 h)
    cases (suffix sc.floating sc.rest).1 with
    | int =>
      simp only [const]
      have := hpos 2147483648 msgInt
      cases hv : intValue 2147483648 msgInt (baseOf s) neg sc.text <;> simp_all [mapOut]
    | long =>
      simp only [const]
      have := hpos 9223372036854775808 msgLong
      cases hv : intValue 9223372036854775808 msgLong (baseOf s) neg sc.text <;> simp_all [mapOut]
    | float => simp only [const]; split <;> simp [mapOut]
    | double => simp only [const]; split <;> simp [mapOut]
  have hmap : ∀ {x : Out (Const × Bytes)}, x ≠ .ub → mapOut some x ≠ .ub := by
    intro x hx; cases x <;> simp_all [mapOut]
  unfold lexNum
  cases src with
  | nil => simp
  | cons b bs =>
    simp only
    split
    · exact hmap (key (.inl ⟨rfl, hx⟩) (by simp))
    · split
      · rename_i h45
        subst h45
        cases bs with
        | nil => simp
        | cons c bs' =>
          simp only
          split
          · refine hmap (key (.inr ?_) (by simp))
            intro t ht
            simp at ht
            exact hm bs' (by rw [ht.1])
          · simp
      · simp

/-- Not all of these sources are accepted literals: `0x5_;` and `-12.5e+3f;`. -/
example : lexNum ⟨fun _ => true, fun _ => true⟩ [48, 120, 53, 95, 59] = .ok (some (.int 5, [59])) ∧
    lexNum ⟨fun _ => true, fun _ => true⟩ [45, 49, 50, 46, 53, 101, 43, 51, 102, 59] =
      .ok (some (.float true [49, 50, 46, 53, 101, 43, 51], [59])) := by decide

/-- `0x` at the end of the source: the character after it is skipped without a look, so the loop reads after the end of the
source. -/
theorem literal_end_violated (lc : Libc) : lexNum lc [48, 120] = .ub := rfl

/-! ## Decimal literals -/

theorem strtoull_rest {base : Nat} (hb : 0 < base) (hb16 : base ≤ 10) {d : UInt8} {t : Bytes} (hd : isDig base d = true)
    (h : (strtoull (d :: t) base).rest = []) : ∀ b ∈ d :: t, isDig base b = true := by
  have hsplit := strtoull_split (base := base) (ds := d :: t.takeWhile (isDig base)) (tl := t.dropWhile (isDig base)) hb
    (by omega) (by simp) (by
      intro b hb'
      rcases List.mem_cons.1 hb' with rfl | hb'
      · exact hd
      · exact NumStr.takeWhile_all b hb')
    (fun b r h => NumStr.dropWhile_head h) (by intro h16; omega)
  rw [List.cons_append, List.takeWhile_append_dropWhile] at hsplit
  rw [h] at hsplit
  have ht : t.takeWhile (isDig base) = t := by
    have := List.takeWhile_append_dropWhile (p := isDig base) (l := t)
    rw [← hsplit.1, List.append_nil] at this
    exact this
  intro b hb'
  rcases List.mem_cons.1 hb' with rfl | hb'
  · exact hd
  · rw [← ht] at hb'
    exact NumStr.takeWhile_all b hb'

theorem suffix_ty {f : Bool} {r : Bytes} :
    ((suffix f r).1 = .int → IntSuffix 32 [] ∧ r = [] ++ (suffix f r).2) ∧
    ((suffix f r).1 = .long → ∃ sfx, IntSuffix 64 sfx ∧ r = sfx ++ (suffix f r).2) := by
  unfold Spec.IntSuffix
  cases r with
  | nil => simp [suffix]; cases f <;> simp
  | cons b bs =>
    simp only [suffix]
    split
    · rename_i h
      exact ⟨by simp, fun _ => ⟨[b], by rcases h with rfl | rfl <;> simp, rfl⟩⟩
    · split
      · simp
      · split
        · simp
        · simp; cases f <;> simp

/-- An accepted integer literal that begins with one of the digits from 1 to 9, with or without a minus, is such a decimal literal:
digits and underlines, which denote the constant. -/
theorem literal_decimal_sound (lc : Libc) {sg t rest : Bytes} {neg : Bool} {d : UInt8} {bits : Nat} {z : Int} {c : Const}
    (hg : Minus sg neg) (hd : 49 ≤ d.toNat ∧ d.toNat ≤ 57) (hc : IntConst bits z c)
    (h : lexNum lc (sg ++ d :: t) = .ok (some (c, rest))) :
    ∃ body sfx n, d :: t = body ++ sfx ++ rest ∧ Body 10 body n ∧ IntSuffix bits sfx ∧ intMeaning bits 10 neg n = some z := by
  have hd1 : isDec d = true := by unfold isDec; simp; omega
  have hd48 : d ≠ 48 := by rintro rfl; simp at hd
  have hd95 : d ≠ 95 := by rintro rfl; simp at hd
  rw [lexNum_sign hg rfl hd1] at h
  have hbase : baseOf (d :: t) = 10 := by
    cases t with
    | nil => rfl
    | cons b r => simp [baseOf, hd48]
  unfold numLit at h
  have hscan : scan (d :: t) = .ok ⟨strip (d :: (scanDec false t).1), (scanDec false t).2,
      (scanDec false t).1.any (fun b => b == 46 || b == 101 || b == 69)⟩ := by
    unfold scan
    rw [hbase, if_neg (by decide), if_neg (by decide), scan10]
  rw [hscan, hbase] at h
  simp only at h
  generalize hf : (scanDec false t).1.any (fun b => b == 46 || b == 101 || b == 69) = f at h
  have hap := scanDec_append false t
  generalize (scanDec false t).1 = tk at h hap
  generalize (scanDec false t).2 = r at h hap
  have hst : strip (d :: tk) = d :: strip tk := by simp [strip, hd95]
  have hdig : isDig 10 d = true := by
    unfold isDig NumStr.dv
    rw [if_pos (by omega)]; simp; omega
  -- the value
  have hval : ∀ {half bits msg}, ((half = 2147483648 ∧ bits = 32) ∨ (half = 9223372036854775808 ∧ bits = 64)) →
      intValue half msg 10 neg (strip (d :: tk)) = .ok z →
      ∃ n, Body 10 (d :: tk) n ∧ intMeaning bits 10 neg n = some z := by
    intro half bits msg hh hv
    have hrest : (strtoull (strip (d :: tk)) 10).rest = [] := by
      by_cases hr : (strtoull (strip (d :: tk)) 10).rest = []
      · exact hr
      · exfalso
        unfold intValue at hv
        simp only [startOffset, show ¬ (10 : Nat) = 16 by decide, show ¬ (10 : Nat) = 8 by decide, show ¬ (10 : Nat) = 2 by decide,
          if_false, List.drop_zero, ne_eq, hr, not_false_eq_true, if_true, or_self] at hv
        cases neg <;> simp at hv
    rw [hst] at hrest
    have hall := strtoull_rest (by omega) (by omega) hdig hrest
    have hden := NumStr.vb_denotes (base := 10) (by omega) _ (d :: strip tk) rfl (by simp) hall
    refine ⟨vb 10 0 (d :: strip tk), ⟨by rw [← strip_eq, hst]; exact hden, fun _ => .inr ⟨d, tk, rfl, hd48, hd95⟩⟩, ?_⟩
    rw [intValue_meaning hh (by simp) (by simp [startOffset]) (ds := strip (d :: tk)) (by rw [hst]; exact hden) (.inl rfl)] at hv
    cases hm : intMeaning bits 10 neg (vb 10 0 (d :: strip tk)) with
    | none => rw [hm] at hv; cases hv
    | some z' => rw [hm] at hv; simp only [orDie, Out.ok.injEq] at hv; rw [hv]
  have hsuf := suffix_ty (f := f) (r := r)
  cases hty : (suffix f r).1 with
  | int =>
    rw [hty] at h
    simp only [const] at h
    cases hv : intValue 2147483648 msgInt 10 neg (strip (d :: tk)) with
    | ub => rw [hv] at h; cases h
    | die m => rw [hv] at h; cases h
    | ok v =>
      rw [hv] at h
      simp only [mapOut, Out.ok.injEq, Option.some.injEq, Prod.mk.injEq] at h
      obtain ⟨h1, h2⟩ := h
      subst h1
      rcases hc with ⟨rfl, hc⟩ | ⟨_, hc⟩
      · simp only [Const.int.injEq] at hc
        subst hc
        obtain ⟨n, hn1, hn2⟩ := hval (.inl ⟨rfl, rfl⟩) hv
        refine ⟨d :: tk, [], n, ?_, hn1, (hsuf.1 hty).1, hn2⟩
        rw [← hap]
        have := (hsuf.1 hty).2
        rw [h2] at this
        simp at this ⊢; exact this
      · cases hc
  | long =>
    rw [hty] at h
    simp only [const] at h
    cases hv : intValue 9223372036854775808 msgLong 10 neg (strip (d :: tk)) with
    | ub => rw [hv] at h; cases h
    | die m => rw [hv] at h; cases h
    | ok v =>
      rw [hv] at h
      simp only [mapOut, Out.ok.injEq, Option.some.injEq, Prod.mk.injEq] at h
      obtain ⟨h1, h2⟩ := h
      subst h1
      rcases hc with ⟨_, hc⟩ | ⟨rfl, hc⟩
      · cases hc
      · simp only [Const.long.injEq] at hc
        subst hc
        obtain ⟨n, hn1, hn2⟩ := hval (.inr ⟨rfl, rfl⟩) hv
        obtain ⟨sfx, hs1, hs2⟩ := hsuf.2 hty
        refine ⟨d :: tk, sfx, n, ?_, hn1, hs1, hn2⟩
        rw [← hap]
        rw [h2] at hs2
        rw [hs2]; simp
  | float =>
    rw [hty] at h
    simp only [const] at h
    split at h
    · simp only [mapOut, Out.ok.injEq, Option.some.injEq, Prod.mk.injEq] at h
      rcases hc with ⟨_, hc⟩ | ⟨_, hc⟩ <;> (rw [hc] at h; cases h.1)
    · cases h
  | double =>
    rw [hty] at h
    simp only [const] at h
    split at h
    · simp only [mapOut, Out.ok.injEq, Option.some.injEq, Prod.mk.injEq] at h
      rcases hc with ⟨_, hc⟩ | ⟨_, hc⟩ <;> (rw [hc] at h; cases h.1)
    · cases h

/-- `-1_2L+` -/
example (lc : Libc) : lexNum lc ([45] ++ 49 :: [95, 50, 76, 43]) = .ok (some (.long (-12), [43])) := rfl

/-! ## Digits outside of the base -/

theorem digitsU {t : Bytes} (h : DigitsU t) : ∀ b ∈ t, isDec b = true ∨ b = 95 := by
  intro b hb
  refine (h b hb).imp ?_ id
  intro h'; unfold isDec; simp; omega

theorem strtoull_bad {base : Nat} (hb : base = 8 ∨ base = 2) {ds : Bytes} (hd : ∀ b ∈ ds, isDec b = true)
    (hbad : ∃ b ∈ ds, isDig base b = false) : (strtoull ds base).rest ≠ [] := by
  by_cases h : ds.takeWhile (isDig base) = []
  · cases ds with
    | nil => simp at hbad
    | cons d t =>
      have hd0 : isDig base d = false := by
        rw [List.takeWhile_cons] at h
        cases hx : isDig base d
        · rfl
        · rw [hx] at h; simp at h
      have hdd := hd d (by simp)
      have h1 : NumStr.isSpace d = false := by
        have : 48 ≤ d.toNat ∧ d.toNat ≤ 57 := by unfold isDec at hdd; simpa using hdd
        unfold NumStr.isSpace; simp; omega
      have h2 := isDec_ne (.inl hdd)
      have hs : NumStr.sign (d :: t) = (false, d :: t) := by simp [NumStr.sign, h2]
      have hdv : ¬ NumStr.dv d < base := by simpa [isDig] using hd0
      have h16 : ¬ (base = 16 ∧ NumStr.hasPrefix (d :: t) = true) := by omega
      unfold strtoull
      simp only [List.dropWhile_cons, h1, Bool.false_eq_true, if_false, hs, if_neg h16, NumStr.digitLoop, if_neg hdv]
      simp
  · have hsp := strtoull_split (base := base) (ds := ds.takeWhile (isDig base)) (tl := ds.dropWhile (isDig base)) (by omega)
      (by omega) h NumStr.takeWhile_all (fun b r h => NumStr.dropWhile_head h) (by omega)
    rw [List.takeWhile_append_dropWhile] at hsp
    rw [hsp.1]
    intro hnil
    obtain ⟨b, hb1, hb2⟩ := hbad
    have := List.takeWhile_append_dropWhile (p := isDig base) (l := ds)
    rw [hnil, List.append_nil] at this
    rw [← this] at hb1
    have := NumStr.takeWhile_all b hb1
    rw [hb2] at this; cases this

theorem scan_oct {base : Nat} {pre body rest : Bytes} (hp : Prefix base pre) (hb : base = 8 ∨ base = 2)
    (hd : DigitsU body) (hne : body ≠ []) (hr : ∀ b r, rest = b :: r → isDec b = false ∧ b ≠ 95) :
    baseOf (pre ++ body ++ rest) = base ∧ (∃ t, pre ++ body ++ rest = 48 :: t) ∧
    ∃ text, scan (pre ++ body ++ rest) = .ok ⟨text, rest, false⟩ ∧ text.drop (startOffset base) = noUnderlines body := by
  have hm := digitsU hd
  rcases hp with ⟨rfl, hp⟩ | ⟨rfl, hp⟩ | ⟨rfl, rfl⟩ | ⟨rfl, rfl⟩
  · omega
  · have hspan := scanOct_span (tl := rest) (t := body) hr hm
    rcases hp with rfl | rfl
    · have e : [48, 98] ++ body ++ rest = 48 :: 98 :: (body ++ rest) := by simp
      have hbase : baseOf (48 :: 98 :: (body ++ rest)) = 2 := rfl
      rw [e]
      refine ⟨hbase, ⟨_, rfl⟩, strip (48 :: 98 :: body), ?_, by simp [strip, startOffset, Spec.noUnderlines]⟩
      unfold scan
      rw [hbase, if_neg (by decide), if_pos (.inr rfl), scan8, hspan]
    · have e : [48, 66] ++ body ++ rest = 48 :: 66 :: (body ++ rest) := by simp
      have hbase : baseOf (48 :: 66 :: (body ++ rest)) = 2 := rfl
      rw [e]
      refine ⟨hbase, ⟨_, rfl⟩, strip (48 :: 66 :: body), ?_, by simp [strip, startOffset, Spec.noUnderlines]⟩
      unfold scan
      rw [hbase, if_neg (by decide), if_pos (.inr rfl), scan8, hspan]
  · obtain ⟨d, t, rfl⟩ := List.exists_cons_of_ne_nil hne
    have hspan := scanOct_span (tl := rest) (t := t) hr (fun b hb' => hm b (by simp [hb']))
    have e : [48] ++ d :: t ++ rest = 48 :: d :: (t ++ rest) := by simp
    have hd : isDec d = true ∨ d = 95 := hm d (by simp)
    have hbase : baseOf (48 :: d :: (t ++ rest)) = 8 := by
      have h1 : ¬ (d = 120 ∨ d = 88) := by rintro (rfl | rfl) <;> revert hd <;> decide
      have h2 : ¬ (d = 98 ∨ d = 66) := by rintro (rfl | rfl) <;> revert hd <;> decide
      simp only [baseOf, if_true, if_neg h1, if_neg h2, if_pos hd]
    rw [e]
    refine ⟨hbase, ⟨_, rfl⟩, strip (48 :: d :: t), ?_, by simp [strip, startOffset, Spec.noUnderlines]⟩
    unfold scan
    rw [hbase, if_neg (by decide), if_pos (.inl rfl), scan8, hspan]
  · omega

theorem intValue_bad {half base : Nat} {msg : String} {text : Bytes} (h : (strtoull (text.drop (startOffset base)) base).rest ≠ []) :
    intValue half msg base false text = .die msg := by
  unfold intValue
  simp only [ne_eq, h, not_false_eq_true, if_true, Bool.false_eq_true, if_false]
  split <;> rename_i h' <;> (split at h' <;> cases h') <;> rfl

/-- An octal or binary literal with a digit that is too large is a compilation error. -/
theorem literal_bad_digit (lc : Libc) {bits base : Nat} {pre body sfx rest : Bytes} (hp : Prefix base pre) (hb : base = 8 ∨ base = 2)
    (hd : DigitsU body) (hbad : ∃ b ∈ body, b ≠ 95 ∧ ¬ Spec.IsDigit base b) (hs : IntSuffix bits sfx) (he : LitEnd rest) :
    ∃ m, lexNum lc (pre ++ body ++ sfx ++ rest) = .die m := by
  have hsuf : SufInt (if bits = 32 then .int else .long) sfx := by
    rcases hs with ⟨rfl, h⟩ | ⟨rfl, h⟩
    · exact .inl ⟨rfl, h⟩
    · exact .inr ⟨rfl, h⟩
  obtain ⟨b, hb1, hb2, hb3⟩ := hbad
  obtain ⟨h1, ⟨t, ht⟩, text, h2, h3⟩ := scan_oct (rest := sfx ++ rest) hp hb hd (List.ne_nil_of_mem hb1)
    (fun b r h => by obtain ⟨_, w2, w3, _⟩ := tail_ne hsuf he h; exact ⟨w2, w3⟩)
  have hst : (strtoull (text.drop (startOffset base)) base).rest ≠ [] := by
    rw [h3]
    apply strtoull_bad hb
    · intro c hc
      simp only [noUnderlines, List.mem_filter, bne_iff_ne] at hc
      exact (digitsU hd c hc.1).resolve_right hc.2
    · refine ⟨b, by simp [noUnderlines, hb1, hb2], ?_⟩
      cases hx : isDig base b
      · rfl
      · exact absurd ((NumStr.isDig_iff (by omega) b).1 hx) hb3
  rw [List.append_assoc]
  have := lexNum_sign (lc := lc) (sg := []) (neg := false) (.inl ⟨rfl, rfl⟩) ht (by decide)
  rw [List.nil_append] at this
  rw [this]
  unfold numLit
  rw [h2, h1]
  simp only [suffix_int hsuf he]
  by_cases hbits : bits = 32
  · simp only [if_pos hbits, const, intValue_bad hst]; exact ⟨_, rfl⟩
  · simp only [if_neg hbits, const, intValue_bad hst]; exact ⟨_, rfl⟩

/-- `07_81L;` -/
example (lc : Libc) : ∃ m, lexNum lc [48, 55, 95, 56, 49, 76, 59] = .die m :=
  literal_bad_digit lc (bits := 64) (base := 8) (pre := [48]) (body := [55, 95, 56, 49]) (sfx := [76]) (rest := [59])
    (.inr (.inr (.inl ⟨rfl, rfl⟩))) (.inl rfl) (by unfold Spec.DigitsU; decide)
    ⟨56, by simp, by decide, by rintro ⟨d, h1, h2⟩; simp [Spec.digitValue] at h1; omega⟩ (.inr ⟨rfl, .inl rfl⟩)
    (by intro b r h; simp at h; rw [← h.1]; unfold Spec.IsWord; decide)

/-! ## Floating point literals -/

theorem scanDec_point {e : Bool} {c : UInt8} {tl : Bytes} (hc : c = 46 ∨ c = 101 ∨ c = 69) :
    scanDec e (c :: tl) = (c :: (scanDec true tl).1, (scanDec true tl).2) := by
  rcases hc with rfl | rfl | rfl <;> simp [scanDec]

theorem scanDec_sign {sg tl : Bytes} (hc : sg = [] ∨ sg = [43] ∨ sg = [45]) :
    scanDec true (sg ++ tl) = (sg ++ (scanDec true tl).1, (scanDec true tl).2) := by
  rcases hc with rfl | rfl | rfl
  · rfl
  · simp [scanDec]
  · simp [scanDec]

theorem scanDec_float {ip fr ex tl : Bytes} (h1 : DigitsU ip) (h2 : fr = [] ∨ ∃ f, fr = 46 :: f ∧ DigitsU f)
    (h3 : ex = [] ∨ Spec.Exponent ex) (hstop : ∀ e, scanDec e tl = ([], tl)) :
    scanDec false (ip ++ (fr ++ (ex ++ tl))) = (ip ++ (fr ++ ex), tl) := by
  have hex : ∀ e, scanDec e (ex ++ tl) = (ex, tl) := by
    intro e
    rcases h3 with rfl | ⟨c, sg, ds, rfl, hc, hsg, hds⟩
    · exact hstop e
    · rw [List.cons_append, scanDec_point (.inr hc), List.append_assoc, scanDec_sign hsg, scanDec_digits (digitsU hds), hstop]
      simp
  have hfr : scanDec false (fr ++ (ex ++ tl)) = (fr ++ ex, tl) := by
    rcases h2 with rfl | ⟨f, rfl, hf⟩
    · exact hex false
    · rw [List.cons_append, scanDec_point (.inl rfl), scanDec_digits (digitsU hf), hex]
      simp
  rw [scanDec_digits (digitsU h1), hfr]

/-- The type of a floating point literal: `double` unless it has the suffix `f` or `F`; a literal without a suffix must have a
fraction or an exponent. -/
def FloatSuffix (t sfx : Bytes) (isFloat : Bool) : Prop :=
  (isFloat = false ∧ sfx = [] ∧ HasPoint t) ∨ (isFloat = false ∧ (sfx = [100] ∨ sfx = [68])) ∨
  (isFloat = true ∧ (sfx = [102] ∨ sfx = [70]))

/-- A floating point literal in decimal notation: the constant is what `strtof` or `strtod` makes of the text without its
underlines and its suffix, with the sign; the tokenizer goes on with the text after it.  It is a compilation error when the
function does not accept the whole text.  The literal must not be followed by a plus or minus (see
`literal_float_sum_violated`).  For hexadecimal floating point literals see `literal_hex_float_partial`. -/
theorem literal_float_partial (lc : Libc) {sg t sfx rest : Bytes} {neg isFloat : Bool} (ht : FloatText t) (hg : Minus sg neg)
    (hs : FloatSuffix t sfx isFloat) (he : LitEnd rest) (hpm : sfx = [] → ∀ b r, rest = b :: r → b ≠ 43 ∧ b ≠ 45) :
    lexNum lc (sg ++ (t ++ sfx ++ rest)) =
      if isFloat then (if lc.strtof (noUnderlines t) then .ok (some (.float neg (noUnderlines t), rest)) else .die msgFloat)
      else (if lc.strtod (noUnderlines t) then .ok (some (.double neg (noUnderlines t), rest)) else .die msgDouble) := by
  obtain ⟨d, ip, fr, ex, rfl, hd, hip, h0, hfr, hex⟩ := ht
  have hd1 : isDec d = true := by unfold isDec; simp; omega
  -- the loop stops at the suffix
  have htail : ∀ b r, sfx ++ rest = b :: r → (isDec b = false ∧ b ≠ 95 ∧ b ≠ 46 ∧ b ≠ 101 ∧ b ≠ 69) ∧ (b ≠ 45 ∧ b ≠ 43) ∧
      (b ≠ 120 ∧ b ≠ 88 ∧ b ≠ 98 ∧ b ≠ 66) := by
    intro b r h
    have hlit : ∀ c : UInt8, c = 100 ∨ c = 68 ∨ c = 102 ∨ c = 70 → (isDec c = false ∧ c ≠ 95 ∧ c ≠ 46 ∧ c ≠ 101 ∧ c ≠ 69) ∧
        (c ≠ 45 ∧ c ≠ 43) ∧ (c ≠ 120 ∧ c ≠ 88 ∧ c ≠ 98 ∧ c ≠ 66) := by
      rintro c (rfl | rfl | rfl | rfl) <;> decide
    rcases hs with ⟨_, rfl, _⟩ | ⟨_, rfl | rfl⟩ | ⟨_, rfl | rfl⟩
    · have hr : rest = b :: r := h
      obtain ⟨_, w2, w3, w4, _, _, w7, w8, w9, w10, w11, w12, _⟩ := word_ne he hr
      have hp := hpm rfl b r hr
      exact ⟨⟨w2, w3, w4, w7, w8⟩, ⟨hp.2, hp.1⟩, w9, w10, w11, w12⟩
    all_goals
      simp at h
      rw [← h.1]
      exact hlit _ (by simp)
  have hstop : ∀ e, scanDec e (sfx ++ rest) = ([], sfx ++ rest) := fun e =>
    scanDec_stop (fun b r h => (htail b r h).1) (fun _ b r h => (htail b r h).2.1)
  have hscan := scanDec_float hip hfr hex hstop
  have e : d :: (ip ++ (fr ++ ex)) ++ sfx ++ rest = d :: (ip ++ (fr ++ (ex ++ (sfx ++ rest)))) := by simp
  have hbase : baseOf (d :: (ip ++ (fr ++ (ex ++ (sfx ++ rest))))) = 10 := by
    by_cases h48 : d = 48
    · rw [h0 h48, List.nil_append]
      have hdot : ∀ c x, c = 46 ∨ c = 101 ∨ c = 69 → baseOf (d :: c :: x) = 10 := by
        rintro c x (rfl | rfl | rfl) <;> simp [baseOf, isDec]
      rcases hfr with rfl | ⟨f, rfl, _⟩
      · rcases hex with rfl | ⟨c, sg', ds, rfl, hc, _, _⟩
        · simp only [List.nil_append]
          cases htl : sfx ++ rest with
          | nil => rfl
          | cons b r =>
            obtain ⟨⟨a1, a2, _⟩, _, a3, a4, a5, a6⟩ := htail b r htl
            simp [baseOf, a1, a2, a3, a4, a5, a6]
        · exact hdot c _ (.inr hc)
      · exact hdot 46 _ (.inl rfl)
    · cases ip ++ (fr ++ (ex ++ (sfx ++ rest))) with
      | nil => rfl
      | cons b r => simp [baseOf, h48]
  rw [e, lexNum_sign hg rfl hd1]
  unfold numLit
  have hsc : scan (d :: (ip ++ (fr ++ (ex ++ (sfx ++ rest))))) = .ok ⟨strip (d :: (ip ++ (fr ++ ex))), sfx ++ rest,
      (ip ++ (fr ++ ex)).any (fun b => b == 46 || b == 101 || b == 69)⟩ := by
    unfold scan
    rw [hbase, if_neg (by decide), if_neg (by decide), scan10, hscan]
  rw [hsc, hbase]
  simp only [strip_eq]
  have hsuf : suffix ((ip ++ (fr ++ ex)).any (fun b => b == 46 || b == 101 || b == 69)) (sfx ++ rest) =
      (if isFloat then .float else .double, rest) := by
    rcases hs with ⟨rfl, rfl, hpt⟩ | ⟨rfl, rfl | rfl⟩ | ⟨rfl, rfl | rfl⟩
    · have hany : (ip ++ (fr ++ ex)).any (fun b => b == 46 || b == 101 || b == 69) = true := by
        have hne := isDec_ne (.inl hd1)
        rw [List.any_eq_true]
        rcases hpt with h | h | h
        · rcases List.mem_cons.1 h with h | h
          · exact absurd h.symm hne.2.2.1
          · exact ⟨46, h, rfl⟩
        · rcases List.mem_cons.1 h with h | h
          · exact absurd h.symm hne.2.2.2.1
          · exact ⟨101, h, rfl⟩
        · rcases List.mem_cons.1 h with h | h
          · exact absurd h.symm hne.2.2.2.2
          · exact ⟨69, h, rfl⟩
      rw [hany]
      cases rest with
      | nil => rfl
      | cons b r =>
        have := word_ne he (b := b) (r := r) rfl
        simp [suffix, this]
    all_goals simp [suffix]
  rw [hsuf]
  cases isFloat
  · simp only [Bool.false_eq_true, if_false, const]
    split <;> rfl
  · simp only [if_true, const]
    split <;> rfl

/-- `-1_0.5e-3F)` -/
example (lc : Libc) (h : lc.strtof [49, 48, 46, 53, 101, 45, 51] = true) :
    lexNum lc [45, 49, 95, 48, 46, 53, 101, 45, 51, 70, 41] = .ok (some (.float true [49, 48, 46, 53, 101, 45, 51], [41])) := by
  have := literal_float_partial lc (t := [49, 95, 48, 46, 53, 101, 45, 51]) (sfx := [70]) (rest := [41]) (neg := true) (isFloat := true)
    ⟨49, [95, 48], [46, 53], [101, 45, 51], rfl, by decide, by unfold Spec.DigitsU; decide, by decide, .inr ⟨[53], rfl, by unfold Spec.DigitsU; decide⟩,
      .inr ⟨101, [45], [51], rfl, .inl rfl, .inr (.inr rfl), by unfold Spec.DigitsU; decide⟩⟩
    (.inr ⟨rfl, rfl⟩) (.inr (.inr ⟨rfl, .inr rfl⟩))
    (by intro b r h; simp at h; rw [← h.1]; unfold Spec.IsWord; decide) (by simp)
  rw [if_pos rfl] at this
  rw [show noUnderlines [49, 95, 48, 46, 53, 101, 45, 51] = [49, 48, 46, 53, 101, 45, 51] from rfl, if_pos h] at this
  exact this

theorem scanHex_digits {e : Bool} {tl : Bytes} : ∀ {t : Bytes}, (∀ b ∈ t, isHex b = true ∨ b = 95) →
    scanHex e (t ++ tl) = (t ++ (scanHex e tl).1, (scanHex e tl).2)
  | [], _ => rfl
  | b :: t, ht => by
    have hb := ht b (by simp)
    have hn : b ≠ 45 ∧ b ≠ 43 ∧ b ≠ 112 ∧ b ≠ 80 := by
      refine ⟨?_, ?_, ?_, ?_⟩ <;> (rintro rfl; revert hb; decide)
    rw [List.cons_append, scanHex, if_pos (by rcases hb with h | h; exact .inl h; exact .inr (.inl h)),
      if_neg (by rintro ⟨_, h | h⟩; exact hn.1 h; exact hn.2.1 h)]
    have e1 : (b == 112) = false := by simpa using hn.2.2.1
    have e2 : (b == 80) = false := by simpa using hn.2.2.2
    simp only [e1, e2, Bool.or_false]
    rw [scanHex_digits (fun x hx => ht x (by simp [hx]))]
    rfl

theorem hexDigitsU {t : Bytes} (h : Spec.HexDigitsU t) : ∀ b ∈ t, isHex b = true ∨ b = 95 := by
  intro b hb
  rcases h b hb with h | h | h | h
  · left; unfold isHex isDec; simp; omega
  · left; unfold isHex isDec; simp; omega
  · left; unfold isHex isDec; simp; omega
  · exact .inr h

theorem decU_hexU {t : Bytes} (h : Spec.DigitsU t) : ∀ b ∈ t, isHex b = true ∨ b = 95 := by
  intro b hb
  rcases h b hb with h | h
  · left; unfold isHex isDec; simp; omega
  · exact .inr h

theorem scanHex_stop {tl : Bytes} (he : LitEnd tl) (hpm : ∀ b r, tl = b :: r → b ≠ 43 ∧ b ≠ 45) (e : Bool) : scanHex e tl = ([], tl) := by
  cases tl with
  | nil => rfl
  | cons b r =>
    obtain ⟨w1, _, w3, w4, w5, w6, _⟩ := word_ne he rfl
    obtain ⟨p1, p2⟩ := hpm b r rfl
    rw [scanHex, if_neg]
    simp [w1, w3, w4, w5, w6, p1, p2]

/-- The type of a hexadecimal floating point literal: `double` unless it has the suffix `f` or `F`. -/
def HexFloatSuffix (sfx : Bytes) (isFloat : Bool) : Prop :=
  (isFloat = false ∧ (sfx = [] ∨ sfx = [100] ∨ sfx = [68])) ∨ (isFloat = true ∧ (sfx = [102] ∨ sfx = [70]))

/-- A hexadecimal floating point literal, like `literal_float_partial`; the suffix, which is a hexadecimal digit, does not become a part of the
number.  The literal must not be followed by a plus or minus. -/
theorem literal_hex_float_partial (lc : Libc) {sg t sfx rest : Bytes} {neg isFloat : Bool} (ht : Spec.HexFloatText t) (hg : Minus sg neg)
    (hs : HexFloatSuffix sfx isFloat) (he : LitEnd rest) (hpm : ∀ b r, rest = b :: r → b ≠ 43 ∧ b ≠ 45) :
    lexNum lc (sg ++ (t ++ sfx ++ rest)) =
      if isFloat then (if lc.strtof (noUnderlines t) then .ok (some (.float neg (noUnderlines t), rest)) else .die msgFloat)
      else (if lc.strtod (noUnderlines t) then .ok (some (.double neg (noUnderlines t), rest)) else .die msgDouble) := by
  obtain ⟨x, d, ip, fr, c, sg', ds, l, rfl, hx, hd1, hd2, hip, hfr, hc, hsg, hds, hl⟩ := ht
  have hl1 : isDec l = true := by unfold isDec; simp; omega
  have hsx : ∀ b ∈ sfx, isHex b = true ∨ b = 95 := by
    intro b hb
    rcases hs with ⟨_, rfl | rfl | rfl⟩ | ⟨_, rfl | rfl⟩ <;> simp at hb <;> subst hb <;> decide
  have hrest := scanHex_stop he hpm
  have h5 : scanHex true (ds ++ ([l] ++ (sfx ++ rest))) = (ds ++ ([l] ++ sfx), rest) := by
    rw [scanHex_digits (decU_hexU hds), scanHex_digits (t := [l]) (by simp [isHex, hl1]), scanHex_digits hsx, hrest]
    simp
  have h4 : scanHex true (sg' ++ (ds ++ ([l] ++ (sfx ++ rest)))) = (sg' ++ (ds ++ ([l] ++ sfx)), rest) := by
    rcases hsg with rfl | rfl | rfl
    · exact h5
    · simp only [List.cons_append, List.nil_append] at h5 ⊢
      rw [scanHex]; simp [isHex, isDec, h5]
    · simp only [List.cons_append, List.nil_append] at h5 ⊢
      rw [scanHex]; simp [isHex, isDec, h5]
  have h3 : ∀ e, scanHex e (c :: (sg' ++ (ds ++ ([l] ++ (sfx ++ rest))))) = (c :: (sg' ++ (ds ++ ([l] ++ sfx))), rest) := by
    intro e
    rcases hc with rfl | rfl
    · rw [scanHex, if_pos (by simp), if_neg (by simp)]; simp only [beq_self_eq_true, Bool.or_true, Bool.true_or, h4]
    · rw [scanHex, if_pos (by simp), if_neg (by simp)]; simp only [beq_self_eq_true, Bool.or_true, Bool.true_or, h4]
  have h2 : scanHex false (fr ++ (c :: (sg' ++ (ds ++ ([l] ++ (sfx ++ rest)))))) = (fr ++ (c :: (sg' ++ (ds ++ ([l] ++ sfx)))), rest) := by
    rcases hfr with rfl | ⟨f, rfl, hf⟩
    · exact h3 false
    · rw [List.cons_append, scanHex, if_pos (by simp), if_neg (by simp)]
      have : scanHex (false || (46 : UInt8) == 112 || (46 : UInt8) == 80) (f ++ (c :: (sg' ++ (ds ++ ([l] ++ (sfx ++ rest)))))) =
          (f ++ (c :: (sg' ++ (ds ++ ([l] ++ sfx)))), rest) := by
        rw [scanHex_digits (hexDigitsU hf), h3]
      rw [this]
      rfl
  have h1 : scanHex false (ip ++ (fr ++ (c :: (sg' ++ (ds ++ ([l] ++ (sfx ++ rest))))))) = (ip ++ (fr ++ (c :: (sg' ++ (ds ++ ([l] ++ sfx))))), rest) := by
    rw [scanHex_digits (hexDigitsU hip), h2]
  have e : 48 :: x :: d :: (ip ++ (fr ++ (c :: (sg' ++ (ds ++ [l]))))) ++ sfx ++ rest =
      48 :: x :: d :: (ip ++ (fr ++ (c :: (sg' ++ (ds ++ ([l] ++ (sfx ++ rest))))))) := by simp
  have hbase : ∀ tl, baseOf (48 :: x :: tl) = 16 := by intro tl; rcases hx with rfl | rfl <;> rfl
  have hp : (ip ++ (fr ++ (c :: (sg' ++ (ds ++ ([l] ++ sfx)))))).any (fun b => b == 112 || b == 80) = true := by
    rw [List.any_eq_true]
    exact ⟨c, by simp, by rcases hc with rfl | rfl <;> rfl⟩
  have hp' : (ip ++ (fr ++ (c :: (sg' ++ (ds ++ ([l] ++ sfx)))))).any (fun b => b == 46 || b == 112 || b == 80) = true := by
    rw [List.any_eq_true]
    exact ⟨c, by simp, by rcases hc with rfl | rfl <;> rfl⟩
  rw [e, lexNum_sign hg rfl (by decide)]
  unfold numLit
  rw [hbase]
  have hscan : scan (48 :: x :: d :: (ip ++ (fr ++ (c :: (sg' ++ (ds ++ ([l] ++ (sfx ++ rest)))))))) =
      .ok ⟨noUnderlines (48 :: x :: d :: (ip ++ (fr ++ (c :: (sg' ++ (ds ++ [l])))))), sfx ++ rest, true⟩ := by
    unfold scan
    rw [hbase, if_pos rfl]
    simp only [scan16, h1, hp', hp, true_and]
    have hlast : ∀ y : UInt8, (48 :: x :: d :: (ip ++ (fr ++ (c :: (sg' ++ (ds ++ ([l] ++ [y]))))))).getLastD 0 = y := by
      intro y
      have : 48 :: x :: d :: (ip ++ (fr ++ (c :: (sg' ++ (ds ++ ([l] ++ [y])))))) = (48 :: x :: d :: (ip ++ (fr ++ (c :: (sg' ++ (ds ++ [l])))))) ++ [y] := by simp
      rw [this, List.getLastD_concat]
    have hone : ∀ y : UInt8, sfx = [y] → isDec y = false → y ≠ 95 →
        (if isDec ((48 :: x :: d :: (ip ++ (fr ++ (c :: (sg' ++ (ds ++ ([l] ++ sfx))))))).getLastD 0) = false then
          Out.ok (⟨(strip (48 :: x :: d :: (ip ++ (fr ++ (c :: (sg' ++ (ds ++ ([l] ++ sfx)))))))).dropLast,
            (48 :: x :: d :: (ip ++ (fr ++ (c :: (sg' ++ (ds ++ ([l] ++ sfx))))))).getLastD 0 :: rest, true⟩ : Scanned)
        else .ok ⟨strip (48 :: x :: d :: (ip ++ (fr ++ (c :: (sg' ++ (ds ++ ([l] ++ sfx))))))), rest, true⟩) =
        .ok ⟨noUnderlines (48 :: x :: d :: (ip ++ (fr ++ (c :: (sg' ++ (ds ++ [l])))))), sfx ++ rest, true⟩ := by
      rintro y rfl hy hy'
      rw [hlast, if_pos hy]
      have e2 : 48 :: x :: d :: (ip ++ (fr ++ (c :: (sg' ++ (ds ++ ([l] ++ [y])))))) = (48 :: x :: d :: (ip ++ (fr ++ (c :: (sg' ++ (ds ++ [l])))))) ++ [y] := by simp
      rw [e2]
      unfold strip
      rw [List.filter_append]
      have : [y].filter (fun b => b != 95) = [y] := by simp [hy']
      rw [this, List.dropLast_concat]
      rfl
    rcases hs with ⟨_, rfl | rfl | rfl⟩ | ⟨_, rfl | rfl⟩
    · have : 48 :: x :: d :: (ip ++ (fr ++ (c :: (sg' ++ (ds ++ ([l] ++ [])))))) = (48 :: x :: d :: (ip ++ (fr ++ (c :: (sg' ++ ds))))) ++ [l] := by simp
      rw [this, List.getLastD_concat, if_neg (by rw [hl1]; simp)]
      simp [strip_eq]
    · exact hone _ rfl (by decide) (by decide)
    · exact hone _ rfl (by decide) (by decide)
    · exact hone _ rfl (by decide) (by decide)
    · exact hone _ rfl (by decide) (by decide)
  rw [hscan]
  have hsuf : suffix true (sfx ++ rest) = (if isFloat then .float else .double, rest) := by
    rcases hs with ⟨rfl, rfl | rfl | rfl⟩ | ⟨rfl, rfl | rfl⟩
    · cases rest with
      | nil => rfl
      | cons b r =>
        have := word_ne he (b := b) (r := r) rfl
        simp [suffix, this]
    all_goals simp [suffix]
  simp only [hsuf]
  cases isFloat
  · simp only [Bool.false_eq_true, if_false, const]
    split <;> rfl
  · simp only [if_true, const]
    split <;> rfl

/-- `-0xA_b.8p+1_0f)` -/
example (lc : Libc) (h : lc.strtof [48, 120, 65, 98, 46, 56, 112, 43, 49, 48] = true) :
    lexNum lc [45, 48, 120, 65, 95, 98, 46, 56, 112, 43, 49, 95, 48, 102, 41] = .ok (some (.float true [48, 120, 65, 98, 46, 56, 112, 43, 49, 48], [41])) := by
  have := literal_hex_float_partial lc (t := [48, 120, 65, 95, 98, 46, 56, 112, 43, 49, 95, 48]) (sfx := [102]) (rest := [41]) (neg := true) (isFloat := true)
    ⟨120, 65, [95, 98], [46, 56], 112, [43], [49, 95], 48, rfl, .inl rfl, by decide, by unfold Spec.HexDigitsU; decide, by unfold Spec.HexDigitsU; decide,
      .inr ⟨[56], rfl, by unfold Spec.HexDigitsU; decide⟩, .inl rfl, .inr (.inl rfl), by unfold Spec.DigitsU; decide, by decide⟩
    (.inr ⟨rfl, rfl⟩) (.inr ⟨rfl, .inl rfl⟩)
    (by intro b r h; simp at h; rw [← h.1]; unfold Spec.IsWord; decide) (by intro b r h; simp at h; rw [← h.1]; decide)
  rw [if_pos rfl] at this
  rw [show noUnderlines [48, 120, 65, 95, 98, 46, 56, 112, 43, 49, 95, 48] = [48, 120, 65, 98, 46, 56, 112, 43, 49, 48] from rfl, if_pos h] at this
  exact this

/-! ## Violations -/

/-- A sum after a hexadecimal floating point literal is read as a part of the literal: `0x1p3f-1;` is one literal, which does not
compile. -/
theorem literal_hex_float_sum_violated (lc : Libc) (h : lc.strtod [48, 120, 49, 112, 51, 102, 45, 49] = false) :
    lexNum lc [48, 120, 49, 112, 51, 102, 45, 49, 59] = .die msgDouble := by
  have e : lexNum lc [48, 120, 49, 112, 51, 102, 45, 49, 59] =
      mapOut some (mapOut (fun c => (c, [59])) (if lc.strtod [48, 120, 49, 112, 51, 102, 45, 49] then .ok (.double false [48, 120, 49, 112, 51, 102, 45, 49]) else .die msgDouble)) := rfl
  rw [e, h]
  rfl

/-- An underline at the end of the exponent removes a digit: of `0x1p35_` followed by `;` the digits `0x1p3` are converted, and
the tokenizer goes on at the underline. -/
theorem literal_hex_underline_violated (lc : Libc) (h : lc.strtod [48, 120, 49, 112, 51] = true) :
    lexNum lc [48, 120, 49, 112, 51, 53, 95, 59] = .ok (some (.double false [48, 120, 49, 112, 51], [95, 59])) := by
  have e : lexNum lc [48, 120, 49, 112, 51, 53, 95, 59] =
      mapOut some (mapOut (fun c => (c, [95, 59])) (if lc.strtod [48, 120, 49, 112, 51] then .ok (.double false [48, 120, 49, 112, 51]) else .die msgDouble)) := rfl
  rw [e, h]
  rfl

/-- A sum after a literal with a fraction is read as a part of the literal: `1.5-2;` does not compile (when `strtod` does
not accept `1.5-2`, as it should), although `1.5` is a literal and `-` an operator. -/
theorem literal_float_sum_violated (lc : Libc) (h : lc.strtod [49, 46, 53, 45, 50] = false) :
    lexNum lc [49, 46, 53, 45, 50, 59] = .die msgDouble := by
  have e : lexNum lc [49, 46, 53, 45, 50, 59] =
      mapOut some (mapOut (fun c => (c, [59])) (if lc.strtod [49, 46, 53, 45, 50] then .ok (.double false [49, 46, 53, 45, 50]) else .die msgDouble)) := rfl
  rw [e, h]
  rfl

/-- `0x-5L;`, `0x 5;` and `0x` before a line break and `5` are accepted: the first character after `0x` is not looked at, and
`strtoull` skips white space and reads a sign. -/
theorem literal_hex_violated (lc : Libc) : lexNum lc [48, 120, 45, 53, 76, 59] = .ok (some (.long (-5), [59])) ∧
    lexNum lc [48, 120, 32, 53, 59] = .ok (some (.int 5, [59])) ∧
    lexNum lc [48, 120, 10, 53, 59] = .ok (some (.int 5, [59])) := ⟨rfl, rfl, rfl⟩

/-- `0b;`, `0x_;` and `0_;` are accepted as 0 although at least one digit is required. -/
theorem literal_empty_violated (lc : Libc) : lexNum lc [48, 98, 59] = .ok (some (.int 0, [59])) ∧
    lexNum lc [48, 120, 95, 59] = .ok (some (.int 0, [59])) ∧ lexNum lc [48, 95, 59] = .ok (some (.int 0, [59])) := ⟨rfl, rfl, rfl⟩

/-- `5-3`: after the literal `5` the tokenizer finds the literal `-3`, not the operator and the literal `3`. -/
theorem literal_minus_violated (lc : Libc) : lexNum lc [53, 45, 51] = .ok (some (.int 5, [45, 51])) ∧
    lexNum lc [45, 51] = .ok (some (.int (-3), [])) := ⟨rfl, rfl⟩

end Literal
end SPVM
