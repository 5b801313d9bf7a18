import Verif.Model.StrLit
import Verif.Spec.StrLit
import Verif.Lemmas.Literal
import Verif.Lemmas.Utf8
/-!
# Lemmas about string literals
-/
namespace SPVM
namespace StrLit
open VM (Bytes)
open Literal (isDec isHex)
open NumStr (isDig vb dv)
open Spec (Named Numbered Item Spells SpellsQ SpellsChar Denotes NoDigit rawTable Unquoted VarName)

/-! ## Numbers -/

theorem vb_lt {base : Nat} (hb : 0 < base) : ∀ (ds : Bytes) (acc : Nat), (∀ b ∈ ds, isDig base b = true) →
    vb base acc ds < (acc + 1) * base ^ ds.length
  | [], acc, _ => by simp [vb]
  | d :: ds, acc, h => by
    rw [NumStr.vb_cons]
    have hd : dv d < base := by have := h d (by simp); simpa [isDig] using this
    have ih := vb_lt hb ds (acc * base + dv d) (fun b hb' => h b (by simp [hb']))
    refine Nat.lt_of_lt_of_le ih ?_
    rw [List.length_cons, Nat.pow_succ, Nat.mul_comm (base ^ ds.length) base, ← Nat.mul_assoc]
    apply Nat.mul_le_mul_right
    rw [Nat.add_mul]
    omega

theorem denotes_lt {base n : Nat} {ds : Bytes} (hb : 0 < base) (h : Denotes base ds n) : n < base ^ ds.length := by
  obtain ⟨_, h2, h3⟩ := NumStr.denotes_vb h
  have := vb_lt hb ds 0 h2
  rw [h3] at this; simpa using this

theorem strtoll_denotes {base n : Nat} {ds : Bytes} (hb : base = 8 ∨ base = 16) (h : Denotes base ds n)
    (hn : n ≤ 9223372036854775807) : (NumStr.strtoll ds base).num = n := by
  obtain ⟨h1, h2, h3⟩ := NumStr.denotes_vb h
  have hc : NumStr.cstr ds = ds := by
    have := (NumStr.takeWhile_append (p := fun b => decide (b ≠ 0)) (l := ds) (r := []) (fun b hb' => by
      have := (NumStr.isDig_lt (base := base) (by omega) (h2 b hb')).2.2.2
      simpa using this) (by simp)).1
    simpa [NumStr.cstr] using this
  have hpre : base = 16 → NumStr.hasPrefix (ds ++ []) = false := by
    intro h16
    rw [List.append_nil]
    match ds with
    | [] => rfl
    | [_] => rfl
    | a :: c :: r =>
      have := h2 c (by simp)
      cases hx : NumStr.hasPrefix (a :: c :: r) with
      | false => rfl
      | true =>
        simp only [NumStr.hasPrefix, Bool.and_eq_true, Bool.or_eq_true, beq_iff_eq] at hx
        subst h16
        rcases hx.2 with rfl | rfl <;> simp [isDig, dv] at this
  have p : NumStr.strtoll ds base = NumStr.Parts.out (base := base) (t := NumStr.cstr ds)
      ⟨[], [], [], ds, [], by simp [hc], by simp, .inl rfl, .inl ⟨rfl, hpre⟩, h1, h2, by simp⟩ :=
    NumStr.strtoll_parts (by omega) (by omega) _
  rw [p]
  simp only [NumStr.Parts.out, NumStr.Parts.val, h3, NumStr.clampI]
  simp
  omega

theorem isOct_dig (b : UInt8) : isOct b = isDig 8 b := by
  unfold isOct isDig dv
  by_cases h : 48 ≤ b.toNat ∧ b.toNat ≤ 57
  · rw [if_pos h]; rw [Bool.eq_iff_iff]; simp; omega
  · rw [if_neg h]; rw [Bool.eq_iff_iff]; simp; constructor
    · intro h'; omega
    · split <;> (try split) <;> intro h' <;> omega

theorem isHex_dig (b : UInt8) : isHex b = isDig 16 b := by
  unfold isHex isDec isDig dv
  rw [Bool.eq_iff_iff]
  simp
  constructor
  · intro h
    split
    · omega
    · split
      · omega
      · split <;> omega
  · intro h
    split at h
    · omega
    · split at h
      · omega
      · split at h <;> omega

theorem digits_denotes {base : Nat} (hb : base ≤ 16) {ds : Bytes} (h1 : ds ≠ []) (h2 : ∀ b ∈ ds, isDig base b = true) :
    Denotes base ds (vb base 0 ds) := NumStr.vb_denotes hb _ ds rfl h1 h2

theorem noDigit_iff {base : Nat} (hb : base ≤ 16) {s : Bytes} : NoDigit base s ↔ ∀ b r, s = b :: r → isDig base b = false := by
  unfold Spec.NoDigit
  constructor
  · intro h b r hs
    cases hx : isDig base b
    · rfl
    · exact absurd ((NumStr.isDig_iff hb b).1 hx) (h b r hs)
  · intro h b r hs hd
    have := (NumStr.isDig_iff hb b).2 hd
    rw [h b r hs] at this; cases this

/-! ## Collecting digits -/

theorem takeN_spec (p : UInt8 → Bool) : ∀ (n : Nat) (s : Bytes), s = (takeN p n s).1 ++ (takeN p n s).2 ∧
    (∀ b ∈ (takeN p n s).1, p b = true) ∧ (takeN p n s).1.length ≤ n ∧
    ((takeN p n s).1.length < n → ∀ b r, (takeN p n s).2 = b :: r → p b = false)
  | 0, s => by simp [takeN]
  | n + 1, [] => by simp [takeN]
  | n + 1, b :: s => by
    rw [takeN]
    cases hb : p b with
    | true =>
      obtain ⟨h1, h2, h3, h4⟩ := takeN_spec p n s
      simp only [if_true]
      refine ⟨by simp [← h1], ?_, by simpa using h3, fun hl => h4 (by simpa using hl)⟩
      intro c hc
      rcases List.mem_cons.1 hc with rfl | hc
      · exact hb
      · exact h2 c hc
    | false =>
      simp only [Bool.false_eq_true, if_false]
      refine ⟨rfl, by simp, by simp, ?_⟩
      intro _ c r h
      simp at h
      rw [← h.1]; exact hb

theorem takeN_eq {p : UInt8 → Bool} : ∀ {n : Nat} {ds rest : Bytes}, (∀ b ∈ ds, p b = true) → ds.length ≤ n →
    (ds.length < n → ∀ b r, rest = b :: r → p b = false) → takeN p n (ds ++ rest) = (ds, rest)
  | 0, ds, rest, _, hl, _ => by
    have : ds = [] := by cases ds; rfl; simp at hl
    subst this; rfl
  | n + 1, [], rest, _, _, hr => by
    cases rest with
    | nil => rfl
    | cons b r => simp [takeN, hr (by simp) b r rfl]
  | n + 1, d :: ds, rest, hd, hl, hr => by
    rw [List.cons_append, takeN, if_pos (hd d (by simp)), takeN_eq (fun b hb => hd b (by simp [hb])) (by simpa using hl)
      (fun h => hr (by simpa using h))]

/-! ## The escape characters with a number -/

theorem closeBrace_iff {o out s rest : Bytes} {e : Bool} : closeBrace o e s = ⟨out, rest, false⟩ ↔ o = out ∧ e = false ∧ s = 125 :: rest := by
  unfold closeBrace
  split
  · constructor
    · intro h; cases h; exact ⟨rfl, rfl, rfl⟩
    · rintro ⟨rfl, rfl, h⟩; cases h; rfl
  · rename_i hn
    constructor
    · intro h; cases h
    · rintro ⟨_, _, h⟩; exact absurd h (hn rest)

theorem octDigits_iff {start s out rest : Bytes} {brace : Bool} (hs : ∃ d t, s = d :: t ∧ isOct d = true) :
    octDigits start brace s = ⟨out, rest, false⟩ ↔
      ∃ ds n, Denotes 8 ds n ∧ ds.length ≤ 3 ∧ n < 256 ∧ out = [UInt8.ofNat n] ∧
        (if brace then s = ds ++ 125 :: rest else s = ds ++ rest ∧ (ds.length < 3 → NoDigit 8 rest)) := by
  obtain ⟨d, t, rfl, hd⟩ := hs
  have hspec := takeN_spec isOct 3 (d :: t)
  have hne : (takeN isOct 3 (d :: t)).1 ≠ [] := by simp [takeN, hd]
  constructor
  · intro h
    unfold octDigits at h
    simp only [if_neg hne] at h
    generalize hds : (takeN isOct 3 (d :: t)).1 = ds at *
    generalize hr : (takeN isOct 3 (d :: t)).2 = r at *
    obtain ⟨h1, h2, h3, h4⟩ := hspec
    have hden := digits_denotes (base := 8) (by omega) hne (fun b hb => by rw [← isOct_dig]; exact h2 b hb)
    have hlt := denotes_lt (by omega) hden
    have hle : vb 8 0 ds < 512 := Nat.lt_of_lt_of_le hlt (Nat.pow_le_pow_right (by omega) h3 : 8 ^ ds.length ≤ 8 ^ 3)
    rw [strtoll_denotes (.inl rfl) hden (by omega)] at h
    split at h
    · cases h
    · rename_i h255
      refine ⟨ds, vb 8 0 ds, hden, h3, by omega, ?_⟩
      cases brace
      · simp only [Bool.false_eq_true, if_false] at h ⊢
        cases h
        exact ⟨by simp, h1, fun hl => (noDigit_iff (by omega)).2 (fun b r' hb => by rw [← isOct_dig]; exact h4 hl b r' hb)⟩
      · simp only [if_true] at h ⊢
        obtain ⟨a1, _, a3⟩ := closeBrace_iff.1 h
        exact ⟨by rw [← a1]; simp, by rw [h1, a3]⟩
  · rintro ⟨ds, n, hden, hlen, hn, rfl, hb⟩
    obtain ⟨e1, e2, _⟩ := NumStr.denotes_vb hden
    have hst := strtoll_denotes (.inl rfl) hden (by omega)
    have hoct : ∀ b ∈ ds, isOct b = true := fun b hb => by rw [isOct_dig]; exact e2 b hb
    unfold octDigits
    cases brace
    · simp only [Bool.false_eq_true, if_false] at hb ⊢
      rw [hb.1, takeN_eq hoct hlen (fun hl b r hbr => by rw [isOct_dig]; exact (noDigit_iff (by omega)).1 (hb.2 hl) b r hbr)]
      simp only [if_neg e1, hst]
      rw [if_neg (by omega)]
      simp
    · simp only [if_true] at hb ⊢
      rw [hb, takeN_eq hoct hlen (fun _ b r hbr => by simp at hbr; rw [← hbr.1]; decide)]
      simp only [if_neg e1, hst]
      rw [if_neg (by omega), closeBrace_iff]
      simp

theorem hexDigits_iff {s out rest : Bytes} {brace : Bool} :
    hexDigits brace s = ⟨out, rest, false⟩ ↔
      ∃ ds n, Denotes 16 ds n ∧ ds.length ≤ 2 ∧ out = [UInt8.ofNat n] ∧
        (if brace then s = ds ++ 125 :: rest else s = ds ++ rest ∧ (ds.length < 2 → NoDigit 16 rest)) := by
  have hspec := takeN_spec isHex 2 s
  constructor
  · intro h
    unfold hexDigits at h
    simp only at h
    generalize hds : (takeN isHex 2 s).1 = ds at *
    generalize hr : (takeN isHex 2 s).2 = r at *
    obtain ⟨h1, h2, h3, h4⟩ := hspec
    have hne : ds ≠ [] := by
      rintro rfl
      cases brace
      · simp at h
      · simp only [if_true] at h
        have := (closeBrace_iff.1 h).2.1
        simp at this
    have hden := digits_denotes (base := 16) (by omega) hne (fun b hb => by rw [← isHex_dig]; exact h2 b hb)
    have hlt := denotes_lt (by omega) hden
    have hle : vb 16 0 ds < 256 := Nat.lt_of_lt_of_le hlt (Nat.pow_le_pow_right (by omega) h3 : 16 ^ ds.length ≤ 16 ^ 2)
    rw [if_neg hne, strtoll_denotes (.inr rfl) hden (by omega)] at h
    have hbeq : (ds == []) = false := by cases ds; exact absurd rfl hne; rfl
    rw [hbeq] at h
    refine ⟨ds, vb 16 0 ds, hden, h3, ?_⟩
    cases brace
    · simp only [Bool.false_eq_true, if_false] at h ⊢
      cases h
      exact ⟨by simp, h1, fun hl => (noDigit_iff (by omega)).2 (fun b r' hb => by rw [← isHex_dig]; exact h4 hl b r' hb)⟩
    · simp only [if_true] at h ⊢
      obtain ⟨a1, _, a3⟩ := closeBrace_iff.1 h
      exact ⟨by rw [← a1]; simp, by rw [h1, a3]⟩
  · rintro ⟨ds, n, hden, hlen, rfl, hb⟩
    obtain ⟨e1, e2, _⟩ := NumStr.denotes_vb hden
    have hlt := denotes_lt (by omega) hden
    have hle : n < 256 := Nat.lt_of_lt_of_le hlt (Nat.pow_le_pow_right (by omega) hlen : 16 ^ ds.length ≤ 16 ^ 2)
    have hst := strtoll_denotes (.inr rfl) hden (by omega)
    have hhex : ∀ b ∈ ds, isHex b = true := fun b hb => by rw [isHex_dig]; exact e2 b hb
    have hbeq : (ds == []) = false := by cases ds; exact absurd rfl e1; rfl
    unfold hexDigits
    cases brace
    · simp only [Bool.false_eq_true, if_false] at hb ⊢
      rw [hb.1, takeN_eq hhex hlen (fun hl b r hbr => by rw [isHex_dig]; exact (noDigit_iff (by omega)).1 (hb.2 hl) b r hbr)]
      simp [if_neg e1, hst, hbeq]
    · simp only [if_true] at hb ⊢
      rw [hb, takeN_eq hhex hlen (fun _ b r hbr => by simp at hbr; rw [← hbr.1]; decide)]
      simp only [if_neg e1, hst, hbeq]
      rw [closeBrace_iff]
      simp

/-- The digits of a number in base 8 or 16: the first one. -/
theorem denotes_head {base n : Nat} {ds : Bytes} (h : Denotes base ds n) : ∃ d t, ds = d :: t ∧ isDig base d = true := by
  obtain ⟨h1, h2, _⟩ := NumStr.denotes_vb h
  obtain ⟨d, t, rfl⟩ := List.exists_cons_of_ne_nil h1
  exact ⟨d, t, rfl, h2 d (by simp)⟩

open Classical in
theorem parseOct_o {r : Bytes} : parseOct (111 :: r) =
    if ∃ d u, r = 123 :: d :: u ∧ isOct d = true then octDigits (111 :: r) true (r.drop 1) else ⟨[255], 111 :: r, true⟩ := by
  unfold parseOct
  simp only
  split
  · split
    · rename_i d u
      by_cases hd : isOct d = true
      · rw [if_pos hd, if_pos ⟨d, u, rfl, hd⟩]; rfl
      · rw [if_neg hd, if_neg]
        rintro ⟨d', u', h, hd'⟩
        cases h; exact hd hd'
    · rw [if_neg]
      rintro ⟨d', u', h, hd'⟩
      cases h
  · rename_i hn
    rw [if_neg]
    rintro ⟨d', u', h, hd'⟩
    exact hn _ h

theorem parseOct_d {c : UInt8} {r : Bytes} (hc : c ≠ 111) : parseOct (c :: r) = octDigits (c :: r) false (c :: r) := by
  unfold parseOct
  split
  · rename_i h; cases h; exact absurd rfl hc
  · rfl

theorem parseOct_iff {c : UInt8} {r out rest : Bytes} (hc : isOct c = true ∨ c = 111) :
    parseOct (c :: r) = ⟨out, rest, false⟩ ↔ ∃ s v, out = [v] ∧ 92 :: c :: r = s ++ rest ∧ Numbered s v rest := by
  by_cases ho : c = 111
  · subst ho
    rw [parseOct_o]
    constructor
    · intro h
      split at h
      · rename_i hx
        obtain ⟨d, u, rfl, hd⟩ := hx
        obtain ⟨ds, n, h1, h2, h3, h4, h5⟩ := (octDigits_iff ⟨d, u, rfl, hd⟩).1 h
        simp only [if_true] at h5
        exact ⟨_, _, h4, by simp [h5], .octalBrace h2 h1 h3⟩
      · cases h
    · rintro ⟨s, v, rfl, hs, hnum⟩
      cases hnum with
      | octal h1 h2 h3 h4 =>
        obtain ⟨d, t, rfl, hd⟩ := denotes_head h2
        simp at hs
        rw [← hs.1] at hd
        simp [isDig, dv] at hd
      | @octalBrace ds n _ h1 h2 h3 =>
        obtain ⟨d, t, rfl, hd⟩ := denotes_head h2
        simp at hs
        subst hs
        rw [if_pos ⟨d, _, rfl, by rw [isOct_dig]; exact hd⟩]
        show octDigits _ true (d :: (t ++ 125 :: rest)) = _
        rw [octDigits_iff ⟨d, _, rfl, by rw [isOct_dig]; exact hd⟩]
        exact ⟨d :: t, n, h2, h1, h3, rfl, by simp⟩
      | hex => simp at hs
      | hexBrace => simp at hs
  · have hc' : isOct c = true := by rcases hc with h | h; exact h; exact absurd h ho
    rw [parseOct_d ho, octDigits_iff ⟨c, r, rfl, hc'⟩]
    constructor
    · rintro ⟨ds, n, h1, h2, h3, h4, h5⟩
      simp only [Bool.false_eq_true, if_false] at h5
      exact ⟨92 :: ds, _, h4, by simp [h5.1], .octal h2 h1 h3 h5.2⟩
    · rintro ⟨s, v, rfl, hs, hnum⟩
      cases hnum with
      | @octal ds n _ h1 h2 h3 h4 =>
        simp only [List.cons_append, List.cons.injEq, true_and] at hs
        exact ⟨ds, n, h2, h1, h3, rfl, by simpa using ⟨hs, h4⟩⟩
      | octalBrace => simp at hs; exact absurd hs.1 ho
      | hex => simp at hs; rw [hs.1] at hc'; simp [isOct] at hc'
      | hexBrace => simp at hs; rw [hs.1] at hc'; simp [isOct] at hc'

theorem parseHex_iff {r out rest : Bytes} :
    parseHex r = ⟨out, rest, false⟩ ↔ ∃ s v, out = [v] ∧ 92 :: 120 :: r = s ++ rest ∧ Numbered s v rest := by
  constructor
  · intro h
    unfold parseHex at h
    split at h
    · obtain ⟨ds, n, h1, h2, h3, h4⟩ := hexDigits_iff.1 h
      simp only [if_true] at h4
      exact ⟨_, _, h3, by simp [h4], .hexBrace h2 h1⟩
    · obtain ⟨ds, n, h1, h2, h3, h4⟩ := hexDigits_iff.1 h
      simp only [Bool.false_eq_true, if_false] at h4
      exact ⟨[92, 120] ++ ds, _, h3, by simp [h4.1], .hex h2 h1 h4.2⟩
  · rintro ⟨s, v, rfl, hs, hnum⟩
    cases hnum with
    | octal h1 h2 h3 h4 =>
      obtain ⟨d, t, rfl, hd⟩ := denotes_head h2
      simp at hs
      rw [← hs.1] at hd
      simp [isDig, dv] at hd
    | octalBrace => simp at hs
    | @hex ds n _ h1 h2 h3 =>
      obtain ⟨d, t, rfl, hd⟩ := denotes_head h2
      simp at hs
      have : parseHex r = hexDigits false r := by
        unfold parseHex
        split
        · rename_i h
          simp at hs
          rw [← hs.1] at hd
          simp [isDig, dv] at hd
        · rfl
      rw [this, hexDigits_iff]
      exact ⟨d :: t, n, h2, h1, rfl, by simpa using ⟨hs, h3⟩⟩
    | @hexBrace ds n _ h1 h2 =>
      simp at hs
      subst hs
      show hexDigits true _ = _
      rw [hexDigits_iff]
      exact ⟨ds, n, h2, h1, rfl, by simp⟩

theorem unicode_iff {ds r out rest : Bytes} (hd : ∀ b ∈ ds, isHex b = true) : unicode ds r = ⟨out, rest, false⟩ ↔
    ∃ n, ds.length ≤ 8 ∧ Denotes 16 ds n ∧ Spec.Utf8.IsScalar n ∧ out = Spec.Utf8.encode n ∧ r = rest := by
  unfold unicode
  by_cases h1 : ds.length < 1
  · rw [if_pos h1]
    constructor
    · intro h; cases h
    · rintro ⟨n, _, h, _⟩
      obtain ⟨d, t, rfl, _⟩ := denotes_head h
      simp at h1
  · rw [if_neg h1]
    have hne : ds ≠ [] := by rintro rfl; simp at h1
    by_cases h2 : ds.length > 8
    · rw [if_pos h2]
      constructor
      · intro h; cases h
      · rintro ⟨n, h, _⟩; omega
    · rw [if_neg h2]
      have hden := digits_denotes (base := 16) (by omega) hne (fun b hb => by rw [← isHex_dig]; exact hd b hb)
      have hlt : vb 16 0 ds < 16 ^ 8 := Nat.lt_of_lt_of_le (denotes_lt (by omega) hden) (Nat.pow_le_pow_right (by omega) (by omega))
      have hu : ∀ n, Denotes 16 ds n → n = vb 16 0 ds := fun n hn => (NumStr.denotes_vb hn).2.2.symm
      simp only [strtoll_denotes (.inr rfl) hden (by omega)]
      by_cases hs : Spec.Utf8.IsScalar (vb 16 0 ds)
      · rw [if_pos ((Utf8.isScalar_iff _).2 hs), Utf8.convert_eq _ (by unfold Spec.Utf8.IsScalar at hs; omega)]
        constructor
        · intro h; cases h
          exact ⟨_, by omega, hden, hs, rfl, rfl⟩
        · rintro ⟨n, _, hn, _, h3, h4⟩
          rw [hu n hn] at h3; rw [h3, h4]
      · rw [if_neg (fun h => hs ((Utf8.isScalar_iff _).1 h))]
        constructor
        · intro h; cases h
        · rintro ⟨n, _, hn, h3, _⟩
          rw [hu n hn] at h3; exact absurd h3 hs

theorem parseUni_iff {r out rest : Bytes} : parseUni r = ⟨out, rest, false⟩ ↔
    ∃ ds n, ds.length ≤ 8 ∧ Denotes 16 ds n ∧ Spec.Utf8.IsScalar n ∧ out = Spec.Utf8.encode n ∧
      r = [123, 85, 43] ++ ds ++ 125 :: rest := by
  constructor
  · intro h
    unfold parseUni at h
    split at h
    · rename_i t
      split at h
      · rename_i r' hr
        obtain ⟨n, h1, h2, h3, h4, h5⟩ := (unicode_iff (fun b hb => NumStr.takeWhile_all b hb)).1 h
        subst h5
        refine ⟨_, n, h1, h2, h3, h4, ?_⟩
        have := List.takeWhile_append_dropWhile (p := isHex) (l := t)
        rw [hr] at this
        simp [this]
      · cases h
    · cases h
  · rintro ⟨ds, n, h1, h2, h3, h4, rfl⟩
    obtain ⟨_, e2, _⟩ := NumStr.denotes_vb h2
    have hd : ∀ b ∈ ds, isHex b = true := fun b hb => by rw [isHex_dig]; exact e2 b hb
    have ht := NumStr.takeWhile_append (p := isHex) (l := ds) (r := 125 :: rest) hd
      (by intro b t h; cases h; decide)
    show (match (ds ++ 125 :: rest).dropWhile isHex with | 125 :: r => unicode ((ds ++ 125 :: rest).takeWhile isHex) r | r => _) = _
    rw [ht.1, ht.2]
    exact (unicode_iff hd).2 ⟨n, h1, h2, h3, h4, rfl⟩

/-! ## All escape characters -/

theorem named_iff {c v : UInt8} : named c = some v ↔ Named c v := by
  constructor
  · intro h
    unfold named at h
    repeat' (split at h; · (rename_i hc; subst hc; cases h; constructor))
    cases h
  · intro h; cases h <;> rfl

theorem isRaw_iff {c : UInt8} : isRaw c = true ↔ c ∈ rawTable ∨ c ∈ ([49, 50, 51, 52, 53, 54, 55] : List UInt8) := by
  have h : ∀ n : Fin 256, isRaw (UInt8.ofNat n) = true ↔ UInt8.ofNat n ∈ rawTable ∨ UInt8.ofNat n ∈ ([49, 50, 51, 52, 53, 54, 55] : List UInt8) := by
    decide +kernel
  have := h ⟨c.toNat, c.toNat_lt⟩
  simpa using this

theorem rawTable_props : ∀ c ∈ rawTable, named c = none ∧ isOct c = false ∧ c ≠ 111 ∧ c ≠ 120 ∧ isRaw c = true := by decide +kernel

theorem numbered_head {s next : Bytes} {v : UInt8} (h : Numbered s v next) :
    ∃ c t, s = 92 :: c :: t ∧ (isOct c = true ∨ c = 111 ∨ c = 120) := by
  cases h with
  | octal _ h2 =>
    obtain ⟨d, t, rfl, hd⟩ := denotes_head h2
    exact ⟨d, t, rfl, .inl (by rw [isOct_dig]; exact hd)⟩
  | octalBrace => exact ⟨111, _, rfl, .inr (.inl rfl)⟩
  | hex => exact ⟨120, _, rfl, .inr (.inr rfl)⟩
  | hexBrace => exact ⟨120, _, rfl, .inr (.inr rfl)⟩

theorem named_oct {c : UInt8} (h : isOct c = true ∨ c = 111 ∨ c = 120) : named c = none := by
  cases hn : named c with
  | none => rfl
  | some v =>
    have := named_iff.1 hn
    rcases h with h | rfl | rfl
    · cases this <;> simp [isOct] at h
    · cases this
    · cases this

theorem begins_iff {c : UInt8} {s : Bytes} : begins c s = true ↔ ∃ r, s = c :: r := by
  cases s with
  | nil => simp [begins]
  | cons b r => simp [begins]

theorem escape_iff {c : UInt8} {r out rest : Bytes} :
    escape c r = ⟨out, rest, false⟩ ↔ ∃ s, 92 :: c :: r = s ++ rest ∧ Item s out rest := by
  constructor
  · intro h
    unfold escape at h
    split at h
    · rename_i v hv
      cases h
      exact ⟨[92, c], rfl, .named (named_iff.1 hv)⟩
    · split at h
      · rename_i ho
        obtain ⟨s, v, rfl, hs, hn⟩ := (parseOct_iff ho).1 h
        exact ⟨s, hs, .numbered hn⟩
      · rename_i ho
        split at h
        · rename_i hx
          subst hx
          obtain ⟨s, v, rfl, hs, hn⟩ := parseHex_iff.1 h
          exact ⟨s, hs, .numbered hn⟩
        · split at h
          · rename_i hN
            obtain ⟨rfl, hN⟩ := hN
            obtain ⟨ds, n, h1, h2, h3, rfl, rfl⟩ := parseUni_iff.1 h
            exact ⟨_, by simp, .unicode h1 h2 h3⟩
          · rename_i hN
            split at h
            · rename_i hr
              cases h
              refine ⟨[92, c], rfl, .raw ?_ ?_⟩
              · rcases isRaw_iff.1 hr with h | h
                · exact h
                · exfalso
                  apply ho
                  left
                  simp only [List.mem_cons, List.not_mem_nil, or_false] at h
                  rcases h with rfl | rfl | rfl | rfl | rfl | rfl | rfl <;> rfl
              · intro hc t ht
                exact hN ⟨hc, begins_iff.2 ⟨t, ht⟩⟩
            · cases h
  · rintro ⟨s, hs, hi⟩
    cases hi with
    | plain _ _ h => simp at hs; exact absurd hs.1.symm h
    | named h =>
      simp at hs
      obtain ⟨rfl, rfl⟩ := hs
      unfold escape
      rw [named_iff.2 h]
    | @numbered _ v _ h =>
      obtain ⟨c', t, rfl, hc⟩ := numbered_head h
      have hs' := hs
      simp at hs'
      obtain ⟨rfl, rfl⟩ := hs'
      unfold escape
      rw [named_oct hc]
      simp only
      by_cases hx : c = 120
      · subst hx
        rw [if_neg (by decide), if_pos rfl, parseHex_iff]
        exact ⟨_, v, rfl, hs, h⟩
      · have ho : isOct c = true ∨ c = 111 := by
          rcases hc with h | h | h
          · exact .inl h
          · exact .inr h
          · exact absurd h hx
        rw [if_pos ho, parseOct_iff ho]
        exact ⟨_, v, rfl, hs, h⟩
    | @unicode ds n _ h1 h2 h3 =>
      simp at hs
      obtain ⟨rfl, rfl⟩ := hs
      unfold escape
      simp only [show named 78 = none from rfl]
      rw [if_neg (by decide), if_neg (by decide), if_pos (by simp [begins]), parseUni_iff]
      exact ⟨ds, n, h1, h2, h3, rfl, by simp⟩
    | raw h1 h2 =>
      simp at hs
      obtain ⟨rfl, rfl⟩ := hs
      obtain ⟨a1, a2, a3, a4, a5⟩ := rawTable_props c h1
      unfold escape
      rw [a1]
      simp only
      rw [if_neg (by simp [a2, a3]), if_neg a4, if_neg, if_pos a5]
      rintro ⟨hc, hb⟩
      obtain ⟨t, ht⟩ := begins_iff.1 hb
      exact h2 hc t ht

/-! ## The end of a string literal -/

theorem after_ok {pre : Bytes} {o : Out Cut} {c : Cut} (h : Cut.after pre o = .ok c) :
    ∃ c', o = .ok c' ∧ c = ⟨pre ++ c'.raw, c'.term, c'.rest⟩ := by
  unfold Cut.after at h
  split at h
  · cases h; exact ⟨_, rfl, rfl⟩
  · cases h
  · cases h

theorem cut_q {t : Bytes} : cut (34 :: t) = .ok ⟨[], 34, t⟩ := by rw [cut.eq_def]; simp

theorem cut_sound' : ∀ (n : Nat) (src : Bytes) (c : Cut), src.length ≤ n → cut src = .ok c →
    (c.term = 34 ∧ src = c.raw ++ 34 :: c.rest ∧ Unquoted true c.raw) ∨
    (c.term = 36 ∧ src = c.raw ++ 36 :: c.rest ∧ begins 34 c.rest = false ∧ Unquoted false c.raw) := by
  intro n src c hlen h
  match n, src, hlen with
  | _, [], _ => simp [cut] at h
  | n + 1, b :: r, hlen =>
    simp only [List.length_cons, Nat.add_le_add_iff_right] at hlen
    rw [cut.eq_def] at h
    simp only at h
    split at h
    · rename_i hb; cases h; subst hb; exact .inl ⟨rfl, rfl, .nil⟩
    · rename_i h34
      split at h
      · rename_i hb; cases h; rw [hb.1]; exact .inr ⟨rfl, rfl, hb.2, .nil⟩
      · rename_i h36
        split at h
        · rename_i h92
          subst h92
          match r, h, hlen with
          | [], h, _ => cases h
          | d :: r', h, hlen =>
            obtain ⟨c', h1, rfl⟩ := after_ok h
            rcases cut_sound' n r' c' (by simp at hlen; omega) h1 with ⟨a1, a2, a3⟩ | ⟨a1, a2, a3, a4⟩
            · exact .inl ⟨a1, by simp [← a2], .esc a3⟩
            · exact .inr ⟨a1, by simp [← a2], a3, .esc a4⟩
        · rename_i h92
          obtain ⟨c', h1, rfl⟩ := after_ok h
          rcases cut_sound' n r c' hlen h1 with ⟨a1, a2, a3⟩ | ⟨a1, a2, a3, a4⟩
          · refine .inl ⟨a1, by simp [← a2], ?_⟩
            by_cases hd : b = 36
            · subst hd
              have hb : begins 34 r = true := by
                cases hbb : begins 34 r
                · exact absurd ⟨rfl, hbb⟩ h36
                · rfl
              obtain ⟨t, rfl⟩ := begins_iff.1 hb
              rw [cut_q] at h1; cases h1
              exact .dollar rfl
            · exact .plain h34 hd h92 a3
          · refine .inr ⟨a1, by simp [← a2], a3, ?_⟩
            have hd : b ≠ 36 := by
              rintro rfl
              have hb : begins 34 r = true := by
                cases hbb : begins 34 r
                · exact absurd ⟨rfl, hbb⟩ h36
                · rfl
              obtain ⟨t, rfl⟩ := begins_iff.1 hb
              rw [cut_q] at h1; cases h1
              cases a1
            exact .plain h34 hd h92 a4

theorem cut_sound (src : Bytes) (c : Cut) (h : cut src = .ok c) :
    (c.term = 34 ∧ src = c.raw ++ 34 :: c.rest ∧ Unquoted true c.raw) ∨
    (c.term = 36 ∧ src = c.raw ++ 36 :: c.rest ∧ begins 34 c.rest = false ∧ Unquoted false c.raw) :=
  cut_sound' src.length src c (Nat.le_refl _) h

theorem cut_plain {b : UInt8} {r : Bytes} (h1 : b ≠ 34) (h2 : b ≠ 36) (h3 : b ≠ 92) : cut (b :: r) = Cut.after [b] (cut r) := by
  rw [cut.eq_def]; simp [h1, h2, h3]

theorem cut_esc {c : UInt8} {r : Bytes} : cut (92 :: c :: r) = Cut.after [92, c] (cut r) := by
  rw [cut.eq_def]; simp

theorem cut_quote {raw rest : Bytes} (h : Unquoted true raw) : cut (raw ++ 34 :: rest) = .ok ⟨raw, 34, rest⟩ := by
  induction h with
  | nil => exact cut_q
  | dollar _ =>
    show cut (36 :: 34 :: rest) = _
    rw [cut.eq_def]
    simp [begins, Cut.after, cut_q]
  | plain h1 h2 h3 _ ih => rw [List.cons_append, cut_plain h1 h2 h3, ih]; rfl
  | esc _ ih => rw [List.cons_append, List.cons_append, cut_esc, ih]; rfl

theorem cut_var {raw r : Bytes} (h : Unquoted false raw) (hr : begins 34 r = false) : cut (raw ++ 36 :: r) = .ok ⟨raw, 36, r⟩ := by
  induction h with
  | nil =>
    show cut (36 :: r) = _
    rw [cut.eq_def]
    simp [hr]
  | dollar h => cases h
  | plain h1 h2 h3 _ ih => rw [List.cons_append, cut_plain h1 h2 h3, ih]; rfl
  | esc _ ih => rw [List.cons_append, List.cons_append, cut_esc, ih]; rfl

/-! ## Decoding -/

theorem raw_cons {last : Bool} {b : UInt8} {r : Bytes} (h1 : b ≠ 34) (h2 : b ≠ 36) (h3 : b ≠ 92) :
    Unquoted last (b :: r) ↔ Unquoted last r := by
  constructor
  · intro h
    cases h with
    | dollar => exact absurd rfl h2
    | plain _ _ _ h => exact h
    | esc => exact absurd rfl h3
  · exact .plain h1 h2 h3

theorem raw_esc {last : Bool} {c : UInt8} {r : Bytes} : Unquoted last (92 :: c :: r) ↔ Unquoted last r := by
  constructor
  · intro h
    cases h with
    | plain _ _ h => exact absurd rfl h
    | esc h => exact h
  · exact .esc

theorem raw_app {last : Bool} {r : Bytes} : ∀ {ds : Bytes}, (∀ b ∈ ds, b ≠ 34 ∧ b ≠ 36 ∧ b ≠ 92) → (Unquoted last (ds ++ r) ↔ Unquoted last r)
  | [], _ => Iff.rfl
  | d :: ds, h => by
    obtain ⟨h1, h2, h3⟩ := h d (by simp)
    rw [List.cons_append, raw_cons h1 h2 h3, raw_app (fun b hb => h b (by simp [hb]))]

theorem dig_plain {base : Nat} (hb : base ≤ 16) {b : UInt8} (h : isDig base b = true) : b ≠ 34 ∧ b ≠ 36 ∧ b ≠ 92 ∧ b ≠ 39 := by
  refine ⟨?_, ?_, ?_, ?_⟩ <;> (rintro rfl; simp [isDig, dv] at h; omega)

theorem denotes_plain {base n : Nat} (hb : base ≤ 16) {ds : Bytes} (h : Denotes base ds n) : ∀ b ∈ ds, b ≠ 34 ∧ b ≠ 36 ∧ b ≠ 92 := by
  intro b hb'
  have := dig_plain hb ((NumStr.denotes_vb h).2.1 b hb')
  exact ⟨this.1, this.2.1, this.2.2.1⟩

theorem raw_numbered {last : Bool} {s next r : Bytes} {v : UInt8} (h : Numbered s v next) : Unquoted last (s ++ r) ↔ Unquoted last r := by
  cases h with
  | octal _ h2 =>
    have hp := denotes_plain (by omega) h2
    obtain ⟨d, t, rfl, hd⟩ := denotes_head h2
    simp only [List.cons_append]
    rw [raw_esc, raw_app (fun b hb => hp b (by simp [hb]))]
  | octalBrace _ h2 =>
    simp only [List.cons_append, List.nil_append, List.append_assoc]
    rw [raw_esc, raw_cons (by decide) (by decide) (by decide), raw_app (denotes_plain (by omega) h2), raw_cons (by decide) (by decide) (by decide)]
  | hex _ h2 =>
    simp only [List.cons_append, List.nil_append, List.append_assoc]
    rw [raw_esc, raw_app (denotes_plain (by omega) h2)]
  | hexBrace _ h2 =>
    simp only [List.cons_append, List.nil_append, List.append_assoc]
    rw [raw_esc, raw_cons (by decide) (by decide) (by decide), raw_app (denotes_plain (by omega) h2), raw_cons (by decide) (by decide) (by decide)]

theorem raw_item {last : Bool} {s out next r : Bytes} (h : Item s out next) : Unquoted last (s ++ r) ↔ Unquoted last r := by
  cases h with
  | plain h1 h2 h3 => exact raw_cons h1 h2 h3
  | named => exact raw_esc
  | numbered h => exact raw_numbered h
  | unicode _ h2 =>
    simp only [List.cons_append, List.nil_append, List.append_assoc]
    rw [raw_esc, raw_cons (by decide) (by decide) (by decide), raw_cons (by decide) (by decide) (by decide),
      raw_cons (by decide) (by decide) (by decide), raw_app (denotes_plain (by omega) h2), raw_cons (by decide) (by decide) (by decide)]
  | raw => exact raw_esc

theorem spells_raw {last : Bool} {raw v : Bytes} (h : Spells last raw v) : Unquoted last raw := by
  induction h with
  | nil => exact .nil
  | dollar h => exact .dollar h
  | cons h _ ih => exact (raw_item h).2 ih

theorem item_cases {s out next : Bytes} (h : Item s out next) :
    (∃ b, s = [b] ∧ out = [b] ∧ b ≠ 92) ∨ ∃ c t, s = 92 :: c :: t := by
  cases h with
  | plain _ _ h => exact .inl ⟨_, rfl, rfl, h⟩
  | named => exact .inr ⟨_, _, rfl⟩
  | numbered h => obtain ⟨c, t, h, _⟩ := numbered_head h; exact .inr ⟨c, t, h⟩
  | unicode => exact .inr ⟨_, _, rfl⟩
  | raw => exact .inr ⟨_, _, rfl⟩

theorem decode_plain {n : Nat} {b : UInt8} {r : Bytes} (h : b ≠ 92) : decode (n + 1) (b :: r) =
    (match decode n r with | .ok (o, e) => .ok (b :: o, e) | .die m => .die m | .ub => .ub) := by
  rw [decode.eq_def]
  simp only [if_neg h]
  rcases decode n r with ⟨_, _⟩ | _ | _ <;> rfl

theorem decode_esc {n : Nat} {c : UInt8} {r : Bytes} : decode (n + 1) (92 :: c :: r) =
    (match decode n (escape c r).rest with
      | .ok (o, e) => .ok ((escape c r).out ++ o, (escape c r).err || e) | .die m => .die m | .ub => .ub) := by
  rw [decode.eq_def]
  simp only [if_true]
  rcases decode n (escape c r).rest with ⟨_, _⟩ | _ | _ <;> rfl

theorem decode_nil (n : Nat) : decode n [] = .ok ([], false) := by cases n <;> rfl

theorem decode_spells {last : Bool} {raw v : Bytes} (h : Spells last raw v) : ∀ n, raw.length ≤ n → decode n raw = .ok (v, false) := by
  induction h with
  | nil => intro n _; cases n <;> rfl
  | dollar =>
    intro n hn
    cases n with
    | zero => simp at hn
    | succ n => rw [decode_plain (by decide), decode_nil]
  | @cons s out next v hi _ ih =>
    intro n hn
    rcases item_cases hi with ⟨b, rfl, rfl, hb⟩ | ⟨c, t, rfl⟩
    · cases n with
      | zero => simp at hn
      | succ n =>
        rw [List.cons_append, decode_plain hb, List.nil_append, ih n (by simpa using hn)]
        rfl
    · cases n with
      | zero => simp at hn
      | succ n =>
        have he : escape c (t ++ next) = ⟨out, next, false⟩ := escape_iff.2 ⟨_, rfl, hi⟩
        rw [List.cons_append, List.cons_append, decode_esc]
        simp only [he]
        rw [ih n (by simp at hn; omega)]
        rfl

theorem spells_decode {last : Bool} : ∀ (n : Nat) {raw v : Bytes}, Unquoted last raw → decode n raw = .ok (v, false) → Spells last raw v
  | n, [], v, _, h => by rw [decode_nil] at h; cases h; exact .nil
  | 0, _ :: _, v, _, h => by simp [decode] at h
  | n + 1, b :: r, v, hraw, h => by
    by_cases hb : b = 92
    · subst hb
      match r, h, hraw with
      | [], h, _ => rw [decode.eq_def] at h; simp at h
      | c :: r', h, hraw =>
        rw [decode_esc] at h
        split at h
        · rename_i o e hd
          simp only [Out.ok.injEq, Prod.mk.injEq, Bool.or_eq_false_iff] at h
          obtain ⟨rfl, h2, rfl⟩ := h
          have he : escape c r' = ⟨(escape c r').out, (escape c r').rest, false⟩ := by rw [← h2]
          obtain ⟨s, hs, hi⟩ := escape_iff.1 he
          rw [hs] at hraw ⊢
          exact .cons hi (spells_decode n ((raw_item hi).1 hraw) hd)
        · cases h
        · cases h
    · rw [decode_plain hb] at h
      split at h
      · rename_i o e hd
        simp only [Out.ok.injEq, Prod.mk.injEq] at h
        obtain ⟨rfl, rfl⟩ := h
        cases hraw with
        | dollar hl =>
          have : o = [] := by rw [decode_nil] at hd; cases hd; rfl
          subst this
          exact .dollar hl
        | plain h1 h2 h3 hr => exact .cons (s := [b]) (out := [b]) (.plain h1 h2 h3) (spells_decode n hr hd)
        | esc => exact absurd rfl hb
      · cases h
      · cases h

theorem strConst_iff {last : Bool} {raw rest : Bytes} {next : Option Bytes} {t : StrTok} (hr : Unquoted last raw) :
    strConst raw rest next = .ok t ↔ t.rest = rest ∧ t.next = next ∧ Spells last raw t.value := by
  unfold strConst
  constructor
  · intro h
    split at h
    · rename_i v e hd
      split at h
      · cases h
      · rename_i he
        cases h
        simp only [Bool.not_eq_true] at he
        subst he
        exact ⟨rfl, rfl, spells_decode _ hr hd⟩
    · cases h
    · cases h
  · rintro ⟨rfl, rfl, h⟩
    rw [decode_spells h _ (Nat.le_refl _)]
    rfl

theorem strLit_end {fuel : Nat} {src rest v : Bytes} :
    strLit fuel src = .ok ⟨v, rest, none⟩ ↔ ∃ raw, src = raw ++ 34 :: rest ∧ Spells true raw v := by
  constructor
  · intro h
    unfold strLit at h
    split at h
    · rename_i c hc
      rcases cut_sound _ _ hc with ⟨a1, a2, a3⟩ | ⟨a1, a2, a3, a4⟩
      · rw [if_neg (by rw [a1]; decide)] at h
        obtain ⟨b1, _, b3⟩ := (strConst_iff a3).1 h
        simp only at b1 b3
        exact ⟨c.raw, by rw [b1]; exact a2, b3⟩
      · rw [if_pos a1] at h
        split at h
        · have := ((strConst_iff a4).1 h).2.1
          cases this
        · cases h
        · cases h
    · cases h
    · cases h
  · rintro ⟨raw, rfl, hs⟩
    unfold strLit
    rw [cut_quote (spells_raw hs)]
    exact (strConst_iff (spells_raw hs)).2 ⟨rfl, rfl, hs⟩

theorem strLit_var {fuel : Nat} {src rest v n : Bytes} :
    strLit fuel src = .ok ⟨v, rest, some n⟩ ↔
      ∃ raw r, src = raw ++ 36 :: r ∧ rest = 36 :: r ∧ begins 34 r = false ∧ Spells false raw v ∧ varEnd fuel r = .ok n := by
  constructor
  · intro h
    unfold strLit at h
    split at h
    · rename_i c hc
      rcases cut_sound _ _ hc with ⟨a1, a2, a3⟩ | ⟨a1, a2, a3, a4⟩
      · rw [if_neg (by rw [a1]; decide)] at h
        have := ((strConst_iff a3).1 h).2.1
        cases this
      · rw [if_pos a1] at h
        split at h
        · rename_i m hm
          obtain ⟨b1, b2, b3⟩ := (strConst_iff a4).1 h
          simp only at b1 b2 b3
          cases b2
          exact ⟨c.raw, c.rest, a2, b1, a3, b3, hm⟩
        · cases h
        · cases h
    · cases h
    · cases h
  · rintro ⟨raw, r, rfl, rfl, hb, hs, hv⟩
    unfold strLit
    rw [cut_var (spells_raw hs) hb]
    simp only [if_true, hv]
    exact (strConst_iff (spells_raw hs)).2 ⟨rfl, rfl, hs⟩

/-! ## Safety and length -/

/-- No backslash is left over at the end. -/
inductive Paired : Bytes → Prop where
  | nil : Paired []
  | plain {b r} : b ≠ 92 → Paired r → Paired (b :: r)
  | esc {c r} : Paired r → Paired (92 :: c :: r)

theorem raw_paired {last : Bool} {raw : Bytes} (h : Unquoted last raw) : Paired raw := by
  induction h with
  | nil => exact .nil
  | dollar => exact .plain (by decide) .nil
  | plain _ _ h _ ih => exact .plain h ih
  | esc _ ih => exact .esc ih

theorem paired_cons {b : UInt8} {r : Bytes} (h : b ≠ 92) : Paired (b :: r) ↔ Paired r := by
  constructor
  · intro h'
    cases h' with
    | plain _ h => exact h
    | esc => exact absurd rfl h
  · exact .plain h

theorem paired_app {r : Bytes} : ∀ {ds : Bytes}, (∀ b ∈ ds, b ≠ 92) → (Paired (ds ++ r) ↔ Paired r)
  | [], _ => Iff.rfl
  | d :: ds, h => by
    rw [List.cons_append, paired_cons (h d (by simp)), paired_app (fun b hb => h b (by simp [hb]))]

/-- What every escape character leaves. -/
def Fine (start : Bytes) (e : Esc) : Prop := e.out.length ≤ 1 ∧ e.rest.length ≤ start.length ∧ (Paired start → Paired e.rest)

theorem closeBrace_fine {out s : Bytes} {err : Bool} (h : out.length ≤ 1) : Fine s (closeBrace out err s) := by
  unfold closeBrace
  split
  · exact ⟨h, by simp, fun hp => (paired_cons (by decide)).1 hp⟩
  · exact ⟨h, Nat.le_refl _, id⟩

theorem takeN_rest {p : UInt8 → Bool} (hp : p 92 = false) (n : Nat) (s : Bytes) :
    (takeN p n s).2.length ≤ s.length ∧ (Paired s → Paired (takeN p n s).2) := by
  obtain ⟨h1, h2, _⟩ := takeN_spec p n s
  refine ⟨?_, fun h => ?_⟩
  · have := congrArg List.length h1
    simp at this; omega
  · rw [h1] at h
    exact (paired_app (fun b hb hb92 => by subst hb92; rw [h2 _ hb] at hp; cases hp)).1 h

theorem Fine.trans {a b : Bytes} {e : Esc} (hl : b.length ≤ a.length) (hp : Paired a → Paired b) (h : Fine b e) : Fine a e :=
  ⟨h.1, Nat.le_trans h.2.1 hl, fun h' => h.2.2 (hp h')⟩

theorem octDigits_fine {start s : Bytes} {brace : Bool} (hl : s.length ≤ start.length) (hp : Paired start → Paired s) :
    Fine start (octDigits start brace s) := by
  have ht := takeN_rest (p := isOct) (by decide) 3 s
  have hl' := Nat.le_trans ht.1 hl
  have hp' := fun h => ht.2 (hp h)
  unfold octDigits
  simp only
  split
  · split
    · exact (closeBrace_fine (by simp)).trans hl' hp'
    · exact ⟨by simp, hl', hp'⟩
  · split
    · exact ⟨by simp, Nat.le_refl _, id⟩
    · split
      · exact (closeBrace_fine (by simp)).trans hl' hp'
      · exact ⟨by simp, hl', hp'⟩

theorem parseOct_fine (s : Bytes) : Fine s (parseOct s) := by
  unfold parseOct
  split
  · split
    · split
      · split
        · refine octDigits_fine (by simp) (fun h => ?_)
          exact (paired_cons (by decide)).1 ((paired_cons (by decide)).1 h)
        · exact ⟨by simp, Nat.le_refl _, id⟩
      · exact ⟨by simp, Nat.le_refl _, id⟩
    · exact ⟨by simp, Nat.le_refl _, id⟩
  · exact octDigits_fine (Nat.le_refl _) id

theorem hexDigits_fine {s : Bytes} {brace : Bool} : Fine s (hexDigits brace s) := by
  have ht := takeN_rest (p := isHex) (by decide) 2 s
  unfold hexDigits
  simp only
  split
  · exact (closeBrace_fine (by split <;> simp)).trans ht.1 ht.2
  · exact ⟨by simp only; split <;> simp, ht.1, ht.2⟩

theorem parseHex_fine (s : Bytes) : Fine s (parseHex s) := by
  unfold parseHex
  split
  · exact hexDigits_fine.trans (by simp) (fun h => (paired_cons (by decide)).1 h)
  · exact hexDigits_fine

theorem encode_le (n : Nat) : (Spec.Utf8.encode n).length ≤ 4 := by
  unfold Spec.Utf8.encode
  split
  · simp
  · split
    · simp
    · split <;> simp

theorem dropWhile_fine {p : UInt8 → Bool} (hp : p 92 = false) (s : Bytes) :
    (s.dropWhile p).length ≤ s.length ∧ (Paired s → Paired (s.dropWhile p)) := by
  have h := List.takeWhile_append_dropWhile (p := p) (l := s)
  refine ⟨?_, fun h' => ?_⟩
  · exact (List.dropWhile_suffix p).length_le
  · rw [← h] at h'
    exact (paired_app (fun b hb hb92 => by subst hb92; rw [NumStr.takeWhile_all _ hb] at hp; cases hp)).1 h'

theorem parseUni_fine (s : Bytes) : (parseUni s).out.length + (parseUni s).rest.length ≤ s.length ∧
    (Paired s → Paired (parseUni s).rest) := by
  cases he : (parseUni s).err with
  | false =>
    have : parseUni s = ⟨(parseUni s).out, (parseUni s).rest, false⟩ := by rw [← he]
    obtain ⟨ds, n, h1, h2, h3, h4, h5⟩ := parseUni_iff.1 this
    rw [h4]
    have hl := congrArg List.length h5
    have := encode_le n
    obtain ⟨d, t, rfl, _⟩ := denotes_head h2
    simp only [List.length_append, List.length_cons, List.length_nil] at hl
    refine ⟨by omega, fun hp => ?_⟩
    rw [h5] at hp
    simp only [List.cons_append, List.nil_append, List.append_assoc] at hp
    have hp := (paired_cons (by decide)).1 ((paired_cons (by decide)).1 ((paired_cons (by decide)).1 hp))
    rw [← List.cons_append] at hp
    exact (paired_cons (by decide)).1 ((paired_app (fun b hb => (denotes_plain (by omega) h2 b hb).2.2)).1 hp)
  | true =>
    unfold parseUni at he ⊢
    split
    · rename_i t
      simp only at he
      have hd := dropWhile_fine (p := isHex) (by decide) t
      have hp3 : Paired (123 :: 85 :: 43 :: t) → Paired t := fun hp =>
        (paired_cons (by decide)).1 ((paired_cons (by decide)).1 ((paired_cons (by decide)).1 hp))
      split
      · rename_i r hr
        rw [hr] at hd he
        simp only at he
        have hd1 := hd.1
        simp only [List.length_cons] at hd1
        have hpr : Paired (123 :: 85 :: 43 :: t) → Paired r := fun h => (paired_cons (by decide)).1 (hd.2 (hp3 h))
        unfold unicode at he ⊢
        split
        · exact ⟨by simp; omega, hpr⟩
        · rename_i h1
          rw [if_neg h1] at he
          split
          · exact ⟨by simp; omega, hpr⟩
          · rename_i h2
            rw [if_neg h2] at he
            simp only at he ⊢
            split
            · rename_i h3
              rw [if_pos h3] at he; cases he
            · exact ⟨by simp; omega, hpr⟩
      · exact ⟨by simp; omega, fun h => hd.2 (hp3 h)⟩
    · exact ⟨by simp, id⟩

theorem escape_fine (c : UInt8) (r : Bytes) : (escape c r).out.length + (escape c r).rest.length ≤ r.length + 2 ∧
    (escape c r).rest.length ≤ r.length + 1 ∧ (Paired r → Paired (escape c r).rest) := by
  unfold escape
  split
  · exact ⟨by simp; omega, by simp, id⟩
  · rename_i hn
    have h92 : c ≠ 92 := by rintro rfl; cases hn
    split
    · have := parseOct_fine (c :: r)
      have h1 := this.1
      have h2 := this.2.1
      simp only [List.length_cons] at h2
      exact ⟨by omega, by omega, fun h => this.2.2 (.plain h92 h)⟩
    · split
      · have := parseHex_fine r
        have h1 := this.1
        have h2 := this.2.1
        exact ⟨by omega, by omega, this.2.2⟩
      · split
        · have := parseUni_fine r
          exact ⟨by omega, by omega, this.2⟩
        · split
          · exact ⟨by simp; omega, by simp, id⟩
          · exact ⟨by simp, by simp, .plain h92⟩

/-- Decoding ends, writes no more bytes than it reads, and meets no undefined behaviour. -/
theorem decode_total : ∀ (n : Nat) {raw : Bytes}, Paired raw → raw.length ≤ n →
    ∃ o e, decode n raw = .ok (o, e) ∧ o.length ≤ raw.length
  | n, [], _, _ => ⟨[], false, decode_nil n, by simp⟩
  | 0, _ :: _, _, h => by simp at h
  | n + 1, b :: r, hp, hl => by
    cases hp with
    | plain hb hp =>
      obtain ⟨o, e, h1, h2⟩ := decode_total n hp (by simpa using hl)
      exact ⟨b :: o, e, by rw [decode_plain hb, h1], by simpa using h2⟩
    | @esc c r hp =>
      obtain ⟨f1, f2, f3⟩ := escape_fine c r
      obtain ⟨o, e, h1, h2⟩ := decode_total n (f3 hp) (by simp at hl; omega)
      refine ⟨_, _, by rw [decode_esc, h1], ?_⟩
      simp only [List.length_append, List.length_cons]
      omega

theorem strConst_safe {last : Bool} {raw rest : Bytes} {next : Option Bytes} (hr : Unquoted last raw) : strConst raw rest next ≠ .ub := by
  obtain ⟨o, e, h, _⟩ := decode_total raw.length (raw_paired hr) (Nat.le_refl _)
  unfold strConst
  rw [h]
  simp only
  split <;> simp

theorem cut_ub' : ∀ (n : Nat) (src : Bytes), src.length ≤ n → cut src = .ub → ∃ raw, src = raw ++ [92] ∧ Unquoted false raw := by
  intro n src hlen h
  match n, src, hlen with
  | _, [], _ => simp [cut] at h
  | n + 1, b :: r, hlen =>
    simp only [List.length_cons, Nat.add_le_add_iff_right] at hlen
    rw [cut.eq_def] at h
    simp only at h
    split at h
    · cases h
    · rename_i h34
      split at h
      · cases h
      · rename_i h36
        split at h
        · rename_i h92
          subst h92
          match r, h, hlen with
          | [], h, _ => exact ⟨[], rfl, .nil⟩
          | d :: r', h, hlen =>
            have h' : cut r' = .ub := by
              simp only at h
              cases hc : cut r' <;> rw [hc] at h <;> first | rfl | (cases h)
            obtain ⟨raw, rfl, hr⟩ := cut_ub' n r' (by simp at hlen; omega) h'
            exact ⟨92 :: d :: raw, rfl, .esc hr⟩
        · rename_i h92
          have h' : cut r = .ub := by
            cases hc : cut r <;> rw [hc] at h <;> first | rfl | (cases h)
          have hd : b ≠ 36 := by
            rintro rfl
            have hb : begins 34 r = true := by
              cases hbb : begins 34 r
              · exact absurd ⟨rfl, hbb⟩ h36
              · rfl
            obtain ⟨t, rfl⟩ := begins_iff.1 hb
            rw [cut_q] at h'; cases h'
          obtain ⟨raw, rfl, hr⟩ := cut_ub' n r hlen h'
          exact ⟨b :: raw, rfl, .plain h34 hd h92 hr⟩

theorem cut_ub {src : Bytes} : cut src = .ub ↔ ∃ raw, src = raw ++ [92] ∧ Unquoted false raw := by
  constructor
  · exact cut_ub' _ src (Nat.le_refl _)
  · rintro ⟨raw, rfl, hr⟩
    induction hr with
    | nil => rfl
    | dollar h => cases h
    | plain h1 h2 h3 _ ih => rw [List.cons_append, cut_plain h1 h2 h3, ih]; rfl
    | esc _ ih => rw [List.cons_append, List.cons_append, cut_esc, ih]; rfl

/-! ## The walk through a variable -/

theorem skipIndex_len {s v : Bytes} (h : skipIndex s = .ok v) : v.length < s.length := by
  unfold skipIndex at h
  split at h
  · rename_i t
    have := (List.dropWhile_suffix (l := t) isAlnumU).length_le
    split at h
    · rename_i hd; cases h; rw [hd] at this; simp at this ⊢; omega
    · cases h
  · rename_i t
    have := (List.dropWhile_suffix (l := t) isAlnumU).length_le
    split at h
    · rename_i hd; cases h; rw [hd] at this; simp at this ⊢; omega
    · cases h
  · cases h

theorem skipIndex_safe (s : Bytes) : skipIndex s ≠ .ub := by
  unfold skipIndex
  split
  · split <;> simp
  · split <;> simp
  · simp

theorem skipArrow_len (s : Bytes) : (skipArrow s).length ≤ s.length := by
  unfold skipArrow
  split
  · simp; omega
  · exact Nat.le_refl _

theorem skipIndexes_safe : ∀ {n : Nat} {s : Bytes}, s.length < n → skipIndexes n s ≠ .ub
  | 0, s, hl => by simp at hl
  | n + 1, s, hl => by
    rw [skipIndexes]
    split
    · rename_i v hv
      have h1 := skipIndex_len hv
      have h2 := skipArrow_len v
      split
      · exact skipIndexes_safe (by omega)
      · simp
    · simp
    · rename_i h; exact absurd h (skipIndex_safe s)

theorem skipName_len {brace : Bool} : ∀ {n : Nat} {s t : Bytes}, skipName brace n s = .ok t → t.length ≤ s.length
  | 0, s, t, h => by simp [skipName] at h
  | n + 1, s, t, h => by
    rw [skipName.eq_def] at h
    simp only at h
    split at h
    · cases h; simp
    · rename_i b r
      split at h
      · have := skipName_len h
        simp; omega
      · split at h
        · have := skipName_len h
          simp at this ⊢; omega
        · split at h
          · split at h
            · cases h; simp
            · exact skipName_len h
          · cases h; simp

theorem skipName_hang (n : Nat) (r : Bytes) : skipName false n (125 :: r) = .ub := by
  induction n with
  | zero => rfl
  | succ n ih =>
    rw [skipName.eq_def]
    simp only [show isAlnumU 125 = false from by decide, Bool.false_eq_true, if_false]
    simpa using ih

theorem isAlnumU_iff (b : UInt8) : isAlnumU b = true ↔ Spec.NameChar b := by
  unfold isAlnumU isDec Spec.NameChar
  simp only [Bool.or_eq_true, Bool.and_eq_true, decide_eq_true_eq, beq_iff_eq]
  constructor
  · rintro (((h | h) | h) | h)
    · exact .inl h
    · exact .inr (.inr (.inl h))
    · exact .inr (.inl h)
    · exact .inr (.inr (.inr h))
  · rintro (h | h | h | h)
    · exact .inl (.inl (.inl h))
    · exact .inl (.inr h)
    · exact .inl (.inl (.inr h))
    · exact .inr h

theorem skipName_char {brace : Bool} {n : Nat} {b : UInt8} {r : Bytes} (h : Spec.NameChar b) :
    skipName brace (n + 1) (b :: r) = skipName brace n r := by
  rw [skipName.eq_def]
  simp only [(isAlnumU_iff b).2 h, if_true]

theorem skipName_colons {brace : Bool} {n : Nat} {r : Bytes} : skipName brace (n + 1) (58 :: 58 :: r) = skipName brace n r := by
  rw [skipName.eq_def]
  simp [show isAlnumU 58 = false from by decide, begins]

theorem skipName_brace {n : Nat} {r : Bytes} : skipName true (n + 1) (125 :: r) = .ok r := by
  rw [skipName.eq_def]
  simp [show isAlnumU 125 = false from by decide]

theorem skipName_end {brace : Bool} {n : Nat} {s : Bytes} (h : Spec.NameEnd s) : skipName brace (n + 1) s = .ok s := by
  obtain ⟨h1, h2⟩ := h
  rw [skipName.eq_def]
  simp only
  split
  · rfl
  · rename_i b r
    obtain ⟨a1, a2⟩ := h1 b r rfl
    rw [if_neg (fun h => a1 ((isAlnumU_iff b).1 h)), if_neg, if_neg a2]
    rintro ⟨rfl, hb⟩
    obtain ⟨t, rfl⟩ := begins_iff.1 hb
    exact h2 t rfl

theorem skipName_var {brace : Bool} {nm : Bytes} (h : Spec.VarName nm) (tl : Bytes) :
    ∀ n, nm.length ≤ n → ∃ m, n - nm.length ≤ m ∧ skipName brace n (nm ++ tl) = skipName brace m tl := by
  induction h with
  | one hb =>
    intro n hn
    cases n with
    | zero => simp at hn
    | succ n => exact ⟨n, by simp, skipName_char hb⟩
  | char hb _ ih =>
    intro n hn
    cases n with
    | zero => simp at hn
    | succ n =>
      obtain ⟨m, h1, h2⟩ := ih n (by simpa using hn)
      exact ⟨m, by simpa using h1, by rw [List.cons_append, skipName_char hb, h2]⟩
  | colons _ ih =>
    intro n hn
    cases n with
    | zero => simp at hn
    | succ n =>
      obtain ⟨m, h1, h2⟩ := ih n (by simp at hn; omega)
      exact ⟨m, by simp; omega, by rw [List.cons_append, List.cons_append, skipName_colons, h2]⟩
  | sep =>
    intro n hn
    cases n with
    | zero => simp at hn
    | succ n => exact ⟨n, by simp, skipName_colons⟩

theorem skipName_named {brace : Bool} {n : Nat} {nm tl : Bytes} (h : Spec.VarName nm) (ht : Spec.NameEnd tl) (hn : nm.length < n) :
    skipName brace n (nm ++ tl) = .ok tl := by
  obtain ⟨m, h1, h2⟩ := skipName_var (brace := brace) h tl n (by omega)
  rw [h2]
  cases m with
  | zero => omega
  | succ m => exact skipName_end ht

theorem skipName_braced {n : Nat} {nm tl : Bytes} (h : Spec.VarName nm) (hn : nm.length < n) :
    skipName true n (nm ++ 125 :: tl) = .ok tl := by
  obtain ⟨m, h1, h2⟩ := skipName_var (brace := true) h (125 :: tl) n (by omega)
  rw [h2]
  cases m with
  | zero => omega
  | succ m => exact skipName_brace

theorem skipIndex_ok {i tl : Bytes} (h : Spec.Index i) : skipIndex (i ++ tl) = .ok tl := by
  cases h with
  | @field w hw =>
    have ht := (NumStr.takeWhile_append (p := isAlnumU) (l := w) (r := 125 :: tl) (fun b hb => (isAlnumU_iff b).2 (hw b hb))
      (by intro b t h; cases h; decide)).2
    simp only [List.append_assoc, List.cons_append, List.nil_append]
    unfold skipIndex
    simp only [ht]
  | @elem w hw =>
    have ht := (NumStr.takeWhile_append (p := isAlnumU) (l := w) (r := 93 :: tl) (fun b hb => (isAlnumU_iff b).2 (hw b hb))
      (by intro b t h; cases h; decide)).2
    simp only [List.append_assoc, List.cons_append, List.nil_append]
    unfold skipIndex
    simp only [ht]

theorem index_head {i : Bytes} (h : Spec.Index i) : ∃ t, i = 123 :: t ∨ i = 91 :: t := by
  cases h
  · exact ⟨_, .inl rfl⟩
  · exact ⟨_, .inr rfl⟩

theorem chain_head {c : Bytes} (h : Spec.Chain c) : ∃ t, c = 123 :: t ∨ c = 91 :: t := by
  cases h with
  | one h => exact index_head h
  | more h _ => obtain ⟨t, rfl | rfl⟩ := index_head h; exact ⟨_, .inl rfl⟩; exact ⟨_, .inr rfl⟩
  | arrow h _ => obtain ⟨t, rfl | rfl⟩ := index_head h; exact ⟨_, .inl rfl⟩; exact ⟨_, .inr rfl⟩

theorem skipArrow_none {s : Bytes} (h : ∀ r, s ≠ 45 :: 62 :: r) : skipArrow s = s := by
  unfold skipArrow
  split
  · exact absurd rfl (h _)
  · rfl

theorem skipIndexes_chain {c tl : Bytes} (h : Spec.Chain c) (h1 : Spec.NotFirst [91, 123] tl) (h2 : ∀ r, tl ≠ 45 :: 62 :: r) :
    ∀ n, c.length ≤ n → skipIndexes n (c ++ tl) = .ok tl := by
  have hpos : ∀ {i : Bytes}, Spec.Index i → 0 < i.length := by
    intro i hi; obtain ⟨t, rfl | rfl⟩ := index_head hi <;> simp
  induction h with
  | @one i hi =>
    intro n hn
    have := hpos hi
    cases n with
    | zero => omega
    | succ n =>
      rw [skipIndexes, skipIndex_ok hi]
      simp only [skipArrow_none h2]
      rw [if_neg]
      rintro (h | h)
      · obtain ⟨t, rfl⟩ := begins_iff.1 h; exact h1 _ _ rfl (by simp)
      · obtain ⟨t, rfl⟩ := begins_iff.1 h; exact h1 _ _ rfl (by simp)
  | @more i c hi hc ih =>
    intro n hn
    have := hpos hi
    rw [List.length_append] at hn
    cases n with
    | zero => omega
    | succ n =>
      rw [List.append_assoc, skipIndexes, skipIndex_ok hi]
      simp only
      obtain ⟨t, rfl | rfl⟩ := chain_head hc
      · rw [skipArrow_none (by simp), if_pos (.inl rfl), ih n (by omega)]
      · rw [skipArrow_none (by simp), if_pos (.inr rfl), ih n (by omega)]
  | @arrow i c hi hc ih =>
    intro n hn
    have := hpos hi
    rw [List.length_append, List.length_append] at hn
    cases n with
    | zero => omega
    | succ n =>
      rw [List.append_assoc, List.append_assoc, skipIndexes, skipIndex_ok hi]
      show (if begins 123 (c ++ tl) = true ∨ begins 91 (c ++ tl) = true then skipIndexes n (c ++ tl) else .ok (c ++ tl)) = _
      obtain ⟨t, rfl | rfl⟩ := chain_head hc
      · rw [if_pos (.inl rfl), ih n (by omega)]
      · rw [if_pos (.inr rfl), ih n (by omega)]

theorem varName_head {nm tl : Bytes} (h : Spec.VarName nm) : begins 36 (nm ++ tl) = false ∧ begins 123 (nm ++ tl) = false ∧
    begins 64 (nm ++ tl) = false ∧ begins 34 (nm ++ tl) = false := by
  have hc : ∀ {b : UInt8}, Spec.NameChar b → ∀ t : Bytes, begins 36 (b :: t) = false ∧ begins 123 (b :: t) = false ∧
      begins 64 (b :: t) = false ∧ begins 34 (b :: t) = false := by
    intro b hb t
    unfold begins
    simp only [beq_eq_false_iff_ne]
    refine ⟨?_, ?_, ?_, ?_⟩ <;> (rintro rfl; simp [Spec.NameChar] at hb)
  cases h with
  | one hb => exact hc hb _
  | char hb _ => exact hc hb _
  | colons _ => simp [begins]
  | sep => simp [begins]

theorem arrow_nameEnd (r : Bytes) : Spec.NameEnd (45 :: 62 :: r) := by
  refine ⟨?_, by simp⟩
  intro b t h
  cases h
  simp [Spec.NameChar]

theorem varEnd_expansion {e next : Bytes} (h : Spec.Expansion e next) : ∀ fuel, e.length < fuel →
    varEnd fuel (e ++ next) = .ok next ∧ begins 34 (e ++ next) = false := by
  intro fuel hf
  cases h with
  | @var n _ hn he ha =>
    obtain ⟨a1, a2, a3, a4⟩ := varName_head (tl := next) hn
    refine ⟨?_, a4⟩
    unfold varEnd
    simp only [a1, a2, a3, Bool.false_eq_true, if_false, skipName_named hn he hf, varTail, and_self, if_true]
    rw [if_neg]
    · intro h
      unfold hasArrow at h
      split at h
      · exact ha _ rfl
      · cases h
  | @braced n _ hn =>
    simp only [List.length_append, List.length_cons, List.length_nil] at hf
    simp only [List.append_assoc, List.cons_append, List.nil_append]
    obtain ⟨a1, a2, a3, a4⟩ := varName_head (tl := 125 :: next) hn
    refine ⟨?_, rfl⟩
    unfold varEnd
    simp only [show begins 36 (123 :: (n ++ 125 :: next)) = false from rfl, show begins 123 (123 :: (n ++ 125 :: next)) = true from rfl,
      Bool.false_eq_true, if_false, if_true, List.drop_succ_cons, List.drop_zero, a3, skipName_braced hn (show n.length < fuel by omega), varTail]
    simp
  | @deref n _ hn he =>
    simp only [List.length_cons] at hf
    obtain ⟨a1, a2, a3, a4⟩ := varName_head (tl := next) hn
    refine ⟨?_, rfl⟩
    unfold varEnd
    simp only [List.cons_append, show begins 36 (36 :: (n ++ next)) = true from rfl, if_true, List.drop_succ_cons, List.drop_zero, a2, a3,
      Bool.false_eq_true, if_false, skipName_named hn he (show n.length < fuel by omega), varTail]
    simp
  | @derefBraced n _ hn =>
    simp only [List.length_append, List.length_cons, List.length_nil] at hf
    simp only [List.append_assoc, List.cons_append, List.nil_append]
    obtain ⟨a1, a2, a3, a4⟩ := varName_head (tl := 125 :: next) hn
    refine ⟨?_, rfl⟩
    unfold varEnd
    simp only [show begins 36 (36 :: 123 :: (n ++ 125 :: next)) = true from rfl, show begins 123 (123 :: (n ++ 125 :: next)) = true from rfl,
      Bool.false_eq_true, if_false, if_true, List.drop_succ_cons, List.drop_zero, a3, skipName_braced hn (show n.length < fuel by omega), varTail]
    simp
  | exception => exact ⟨rfl, rfl⟩
  | exceptionBraced => exact ⟨rfl, rfl⟩
  | @access n c _ hn hc h1 h2 =>
    simp only [List.length_append, List.length_cons, List.length_nil] at hf
    simp only [List.append_assoc, List.cons_append, List.nil_append]
    obtain ⟨a1, a2, a3, a4⟩ := varName_head (tl := 45 :: 62 :: (c ++ next)) hn
    refine ⟨?_, a4⟩
    unfold varEnd
    simp only [a1, a2, a3, Bool.false_eq_true, if_false, skipName_named hn (arrow_nameEnd _) (show n.length < fuel by omega), varTail,
      and_self, if_true]
    show skipIndexes fuel (c ++ next) = _
    exact skipIndexes_chain hc h1 h2 fuel (by omega)

theorem skipName_ub {brace : Bool} : ∀ {n : Nat} {s : Bytes}, s.length < n → skipName brace n s = .ub →
    brace = false ∧ ∃ nm r, s = nm ++ 125 :: r ∧ (nm = [] ∨ VarName nm)
  | 0, s, hl, _ => by simp at hl
  | n + 1, s, hl, h => by
    rw [skipName.eq_def] at h
    simp only at h
    split at h
    · cases h
    · rename_i b r
      simp only [List.length_cons, Nat.add_lt_add_iff_right] at hl
      split at h
      · rename_i hb
        obtain ⟨h1, nm, r', rfl, h2⟩ := skipName_ub hl h
        refine ⟨h1, b :: nm, r', rfl, .inr ?_⟩
        rcases h2 with rfl | h2
        · exact .one ((isAlnumU_iff b).1 hb)
        · exact .char ((isAlnumU_iff b).1 hb) h2
      · split at h
        · rename_i hb
          obtain ⟨t, rfl⟩ := begins_iff.1 hb.2
          obtain ⟨h1, nm, r', h3, h2⟩ := skipName_ub (s := t) (by simp at hl; omega) h
          rw [hb.1]
          refine ⟨h1, 58 :: 58 :: nm, r', by simp [h3], .inr ?_⟩
          rcases h2 with rfl | h2
          · exact .sep
          · exact .colons h2
        · split at h
          · rename_i hb
            split at h
            · cases h
            · rename_i hbr
              exact ⟨by simpa using hbr, [], r, by simp [hb], .inl rfl⟩
          · cases h

theorem skipName_name_hang {nm r : Bytes} (h : nm = [] ∨ VarName nm) : ∀ n, skipName false n (nm ++ 125 :: r) = .ub := by
  rcases h with rfl | h
  · exact fun n => skipName_hang n r
  · induction h with
    | one hb =>
      intro n
      cases n with
      | zero => rfl
      | succ n => rw [List.cons_append, skipName_char hb]; exact skipName_hang n r
    | sep =>
      intro n
      cases n with
      | zero => rfl
      | succ n => rw [List.cons_append, List.cons_append, skipName_colons]; exact skipName_hang n r
    | char hb _ ih =>
      intro n
      cases n with
      | zero => rfl
      | succ n => rw [List.cons_append, skipName_char hb]; exact ih n
    | colons _ ih =>
      intro n
      cases n with
      | zero => rfl
      | succ n => rw [List.cons_append, List.cons_append, skipName_colons]; exact ih n

theorem varEnd_ub {fuel : Nat} {s : Bytes} (hl : s.length < fuel) : varEnd fuel s = .ub ↔
    ∃ d nm r, s = d ++ nm ++ 125 :: r ∧ (d = [] ∨ d = [36]) ∧ (nm = [] ∨ VarName nm) := by
  constructor
  · intro h
    unfold varEnd at h
    simp only at h
    have hd : ∃ d, (d = [] ∨ d = [36]) ∧ s = d ++ (if begins 36 s = true then s.drop 1 else s) := by
      by_cases hb : begins 36 s = true
      · rw [if_pos hb]
        obtain ⟨t, rfl⟩ := begins_iff.1 hb
        exact ⟨[36], .inr rfl, rfl⟩
      · rw [if_neg hb]; exact ⟨[], .inl rfl, rfl⟩
    generalize (if begins 36 s = true then s.drop 1 else s) = s1 at h hd
    obtain ⟨d, hd1, hd2⟩ := hd
    have hl1 : s1.length ≤ s.length := by rw [hd2]; simp
    have hl2 : (if begins 123 s1 = true then s1.drop 1 else s1).length ≤ s1.length := by split <;> simp
    generalize hs2 : (if begins 123 s1 = true then s1.drop 1 else s1) = s2 at h hl2
    split at h
    · cases h
    · split at h
      · rename_i s3 h3
        have := skipName_len h3
        unfold varTail at h
        split at h
        · split at h
          · exact absurd h (skipIndexes_safe (by have := skipArrow_len s3; omega))
          · cases h
        · cases h
      · cases h
      · rename_i h3
        obtain ⟨h4, nm, r, h5, h6⟩ := skipName_ub (by omega) h3
        rw [h4] at hs2
        simp only [Bool.false_eq_true, if_false] at hs2
        rw [← hs2] at h5
        exact ⟨d, nm, r, by rw [hd2, h5, List.append_assoc], hd1, h6⟩
  · rintro ⟨d, nm, r, rfl, hd, hn⟩
    have hh : begins 36 (nm ++ 125 :: r) = false ∧ begins 123 (nm ++ 125 :: r) = false ∧ begins 64 (nm ++ 125 :: r) = false := by
      rcases hn with rfl | hn
      · exact ⟨rfl, rfl, rfl⟩
      · have := varName_head (tl := 125 :: r) hn
        exact ⟨this.1, this.2.1, this.2.2.1⟩
    rcases hd with rfl | rfl
    · unfold varEnd
      simp only [List.nil_append, hh, Bool.false_eq_true, if_false, skipName_name_hang hn]
    · unfold varEnd
      simp only [List.cons_append, List.nil_append, show ∀ t : Bytes, begins 36 (36 :: t) = true from fun _ => rfl, if_true, List.drop_succ_cons, List.drop_zero, hh, Bool.false_eq_true, if_false, skipName_name_hang hn]

/-! ## Single-quoted string literals -/

/-- Text that is free of `'`, but for a backslash before. -/
inductive RawQ : Bytes → Prop where
  | nil : RawQ []
  | plain {b r} : b ≠ 39 → b ≠ 92 → RawQ r → RawQ (b :: r)
  | esc {c r} : RawQ r → RawQ (92 :: c :: r)

theorem cutQ_plain {b : UInt8} {r : Bytes} (h1 : b ≠ 39) (h2 : b ≠ 92) : cutQ (b :: r) =
    (match cutQ r with | .ok (raw, rest) => .ok (b :: raw, rest) | .die m => .die m | .ub => .ub) := by
  rw [cutQ.eq_def]
  simp only [if_neg h1, if_neg h2]
  rcases cutQ r with ⟨_, _⟩ | _ | _ <;> rfl

theorem cutQ_esc {c : UInt8} {r : Bytes} : cutQ (92 :: c :: r) =
    (match cutQ r with | .ok (raw, rest) => .ok (92 :: c :: raw, rest) | .die m => .die m | .ub => .ub) := by
  rw [cutQ.eq_def]
  simp only [show ¬ ((92 : UInt8) = 39) from by decide, if_false, if_true]
  rcases cutQ r with ⟨_, _⟩ | _ | _ <;> rfl

theorem cutQ_q {r : Bytes} : cutQ (39 :: r) = .ok ([], r) := by rw [cutQ.eq_def]; simp

theorem cutQ_sound : ∀ (n : Nat) (src raw rest : Bytes), src.length ≤ n → cutQ src = .ok (raw, rest) →
    src = raw ++ 39 :: rest ∧ RawQ raw := by
  intro n src raw rest hlen h
  match n, src, hlen with
  | _, [], _ => simp [cutQ] at h
  | n + 1, b :: r, hlen =>
    simp only [List.length_cons, Nat.add_le_add_iff_right] at hlen
    by_cases h39 : b = 39
    · subst h39; rw [cutQ_q] at h; cases h; exact ⟨rfl, .nil⟩
    · by_cases h92 : b = 92
      · subst h92
        match r, h, hlen with
        | [], h, _ => rw [cutQ.eq_def] at h; simp at h
        | c :: r', h, hlen =>
          rw [cutQ_esc] at h
          split at h
          · rename_i raw' rest' h'
            cases h
            obtain ⟨a1, a2⟩ := cutQ_sound n r' raw' _ (by simp at hlen; omega) h'
            exact ⟨by simp [a1], .esc a2⟩
          · cases h
          · cases h
      · rw [cutQ_plain h39 h92] at h
        split at h
        · rename_i raw' rest' h'
          cases h
          obtain ⟨a1, a2⟩ := cutQ_sound n r raw' _ hlen h'
          exact ⟨by simp [a1], .plain h39 h92 a2⟩
        · cases h
        · cases h

theorem cutQ_complete {raw rest : Bytes} (h : RawQ raw) : cutQ (raw ++ 39 :: rest) = .ok (raw, rest) := by
  induction h with
  | nil => exact cutQ_q
  | plain h1 h2 _ ih => rw [List.cons_append, cutQ_plain h1 h2, ih]
  | esc _ ih => rw [List.cons_append, List.cons_append, cutQ_esc, ih]

theorem cutQ_ub : ∀ (n : Nat) (src : Bytes), src.length ≤ n → cutQ src = .ub → ∃ raw, src = raw ++ [92] ∧ RawQ raw := by
  intro n src hlen h
  match n, src, hlen with
  | _, [], _ => simp [cutQ] at h
  | n + 1, b :: r, hlen =>
    simp only [List.length_cons, Nat.add_le_add_iff_right] at hlen
    by_cases h39 : b = 39
    · subst h39; rw [cutQ_q] at h; cases h
    · by_cases h92 : b = 92
      · subst h92
        match r, h, hlen with
        | [], h, _ => exact ⟨[], rfl, .nil⟩
        | c :: r', h, hlen =>
          rw [cutQ_esc] at h
          split at h
          · cases h
          · cases h
          · rename_i h'
            obtain ⟨raw, rfl, a⟩ := cutQ_ub n r' (by simp at hlen; omega) h'
            exact ⟨92 :: c :: raw, rfl, .esc a⟩
      · rw [cutQ_plain h39 h92] at h
        split at h
        · cases h
        · cases h
        · rename_i h'
          obtain ⟨raw, rfl, a⟩ := cutQ_ub n r hlen h'
          exact ⟨b :: raw, rfl, .plain h39 h92 a⟩

theorem cutQ_ub_of {raw : Bytes} (h : RawQ raw) : cutQ (raw ++ [92]) = .ub := by
  induction h with
  | nil => rfl
  | plain h1 h2 _ ih => rw [List.cons_append, cutQ_plain h1 h2, ih]
  | esc _ ih => rw [List.cons_append, List.cons_append, cutQ_esc, ih]

theorem decodeQ_plain {n : Nat} {b : UInt8} {r : Bytes} (h : b ≠ 92) : decodeQ (n + 1) (b :: r) =
    (match decodeQ n r with | .ok (o, e) => .ok (b :: o, e) | .die m => .die m | .ub => .ub) := by
  rw [decodeQ.eq_def]
  simp only [if_neg h]
  rcases decodeQ n r with ⟨_, _⟩ | _ | _ <;> rfl

theorem decodeQ_good {n : Nat} {c : UInt8} {r : Bytes} (h : c = 92 ∨ c = 39) : decodeQ (n + 1) (92 :: c :: r) =
    (match decodeQ n r with | .ok (o, e) => .ok (c :: o, e) | .die m => .die m | .ub => .ub) := by
  rw [decodeQ.eq_def]
  simp only [if_true, if_pos h]
  rcases decodeQ n r with ⟨_, _⟩ | _ | _ <;> rfl

theorem decodeQ_bad {n : Nat} {c : UInt8} {r : Bytes} (h : ¬ (c = 92 ∨ c = 39)) : decodeQ (n + 1) (92 :: c :: r) =
    (match decodeQ n (c :: r) with | .ok (o, _) => .ok (o, true) | .die m => .die m | .ub => .ub) := by
  rw [decodeQ.eq_def]
  simp only [if_true, if_neg h]
  rcases decodeQ n (c :: r) with ⟨_, _⟩ | _ | _ <;> rfl

theorem decodeQ_nil (n : Nat) : decodeQ n [] = .ok ([], false) := by cases n <;> rfl

theorem spellsQ_raw {raw v : Bytes} (h : SpellsQ raw v) : RawQ raw := by
  induction h with
  | nil => exact .nil
  | plain h1 h2 _ ih => exact .plain h1 h2 ih
  | escaped _ _ ih => exact .esc ih

theorem decodeQ_spells {raw v : Bytes} (h : SpellsQ raw v) : ∀ n, raw.length ≤ n → decodeQ n raw = .ok (v, false) := by
  induction h with
  | nil => intro n _; exact decodeQ_nil n
  | plain _ h2 _ ih =>
    intro n hn
    cases n with
    | zero => simp at hn
    | succ n => rw [decodeQ_plain h2, ih n (by simpa using hn)]
  | escaped h _ ih =>
    intro n hn
    cases n with
    | zero => simp at hn
    | succ n => rw [decodeQ_good (Or.comm.1 h), ih n (by simp at hn; omega)]

theorem spellsQ_decode : ∀ (n : Nat) {raw v : Bytes}, RawQ raw → decodeQ n raw = .ok (v, false) → SpellsQ raw v
  | n, [], v, _, h => by rw [decodeQ_nil] at h; cases h; exact .nil
  | 0, _ :: _, v, _, h => by simp [decodeQ] at h
  | n + 1, b :: r, v, hraw, h => by
    cases hraw with
    | plain h1 h2 hr =>
      rw [decodeQ_plain h2] at h
      split at h
      · rename_i o e hd
        cases h
        exact .plain h1 h2 (spellsQ_decode n hr hd)
      · cases h
      · cases h
    | @esc c r hr =>
      by_cases hc : c = 92 ∨ c = 39
      · rw [decodeQ_good hc] at h
        split at h
        · rename_i o e hd
          cases h
          exact .escaped (Or.comm.1 hc) (spellsQ_decode n hr hd)
        · cases h
        · cases h
      · rw [decodeQ_bad hc] at h
        split at h <;> cases h

theorem decodeQ_total : ∀ (n : Nat) {raw : Bytes}, Paired raw → raw.length ≤ n →
    ∃ o e, decodeQ n raw = .ok (o, e) ∧ o.length ≤ raw.length
  | n, [], _, _ => ⟨[], false, decodeQ_nil n, by simp⟩
  | 0, _ :: _, _, h => by simp at h
  | n + 1, b :: r, hp, hl => by
    cases hp with
    | plain hb hp =>
      obtain ⟨o, e, h1, h2⟩ := decodeQ_total n hp (by simpa using hl)
      exact ⟨b :: o, e, by rw [decodeQ_plain hb, h1], by simpa using h2⟩
    | @esc c r hp =>
      by_cases hc : c = 92 ∨ c = 39
      · obtain ⟨o, e, h1, h2⟩ := decodeQ_total n hp (by simp at hl; omega)
        exact ⟨c :: o, e, by rw [decodeQ_good hc, h1], by simp; omega⟩
      · obtain ⟨o, e, h1, h2⟩ := decodeQ_total n (Paired.plain (fun h => hc (.inl h)) hp) (by simp at hl ⊢; omega)
        exact ⟨o, true, by rw [decodeQ_bad hc, h1], by simp at h2 ⊢; omega⟩

theorem rawQ_paired {raw : Bytes} (h : RawQ raw) : Paired raw := by
  induction h with
  | nil => exact .nil
  | plain _ h _ ih => exact .plain h ih
  | esc _ ih => exact .esc ih

theorem singleLit_iff {src v rest : Bytes} : singleLit src = .ok (v, rest) ↔ ∃ raw, src = raw ++ 39 :: rest ∧ SpellsQ raw v := by
  unfold singleLit
  constructor
  · intro h
    split at h
    · rename_i raw rest' hc
      obtain ⟨a1, a2⟩ := cutQ_sound _ _ _ _ (Nat.le_refl _) hc
      split at h
      · rename_i v' e hd
        split at h
        · cases h
        · rename_i he
          cases h
          simp only [Bool.not_eq_true] at he
          subst he
          exact ⟨raw, a1, spellsQ_decode _ a2 hd⟩
      · cases h
      · cases h
    · cases h
    · cases h
  · rintro ⟨raw, rfl, hs⟩
    rw [cutQ_complete (spellsQ_raw hs)]
    simp only
    rw [decodeQ_spells hs _ (Nat.le_refl _)]
    rfl

theorem singleLit_ub {src : Bytes} : singleLit src = .ub ↔ ∃ raw, src = raw ++ [92] ∧ RawQ raw := by
  constructor
  · intro h
    unfold singleLit at h
    split at h
    · rename_i raw rest hc
      obtain ⟨a1, a2⟩ := cutQ_sound _ _ _ _ (Nat.le_refl _) hc
      obtain ⟨o, e, h1, _⟩ := decodeQ_total raw.length (rawQ_paired a2) (Nat.le_refl _)
      rw [h1] at h
      simp only at h
      split at h <;> cases h
    · cases h
    · rename_i hc
      exact cutQ_ub _ _ (Nat.le_refl _) hc
  · rintro ⟨raw, rfl, hr⟩
    unfold singleLit
    rw [cutQ_ub_of hr]

/-! ## Character literals -/

theorem charEnd_iff {e : Esc} {v : UInt8} {rest : Bytes} :
    charEnd e = .ok (v, rest) ↔ e.rest = 39 :: rest ∧ e.err = false ∧ e.out.headD 0 = v := by
  obtain ⟨o, r, er⟩ := e
  unfold charEnd
  constructor
  · intro h
    split at h
    · rename_i r' hr
      simp only at hr
      subst hr
      cases er
      · simp at h; simp [h]
      · simp at h
    · cases h
  · rintro ⟨h1, h2, h3⟩
    simp only at h1 h2 h3
    subst h1 h2 h3
    rfl

theorem charLit_iff {src rest : Bytes} {v : UInt8} : charLit src = .ok (v, rest) ↔ ∃ raw, src = raw ++ 39 :: rest ∧ SpellsChar raw v := by
  constructor
  · intro h
    match src with
    | [] => cases h
    | b :: r =>
      rw [charLit.eq_def] at h
      simp only at h
      split at h
      · cases h
      · rename_i h39
        split at h
        · rename_i h92
          subst h92
          split at h
          · cases h
          · rename_i c r'
            obtain ⟨a1, a2, a3⟩ := charEnd_iff.1 h
            have hn : ∀ {s w}, 92 :: c :: r' = s ++ 39 :: rest → Numbered s w (39 :: rest) →
                ∃ raw, 92 :: c :: r' = raw ++ 39 :: rest ∧ SpellsChar raw w := fun h1 h2 => ⟨_, h1, .numbered h2⟩
            unfold charEscape at a1 a2 a3
            split at a1
            · rename_i h36; rw [if_pos h36] at a2; cases a2
            · rename_i h36
              rw [if_neg h36] at a2 a3
              split at a1
              · rename_i w hw
                simp only [hw] at a1 a3
                simp at a3
                subst a1 a3
                exact ⟨[92, c], rfl, .named (named_iff.1 hw) h36⟩
              · rename_i hw
                simp only [hw] at a2 a3
                split at a1
                · rename_i ho
                  rw [if_pos ho] at a2 a3
                  have : parseOct (c :: r') = ⟨(parseOct (c :: r')).out, 39 :: rest, false⟩ := by rw [← a1, ← a2]
                  obtain ⟨s, w, h1, h2, h3⟩ := (parseOct_iff ho).1 this
                  rw [h1] at a3
                  simp at a3
                  subst a3
                  exact hn h2 h3
                · rename_i ho
                  rw [if_neg ho] at a2 a3
                  split at a1
                  · rename_i hx
                    rw [if_pos hx] at a2 a3
                    have : parseHex r' = ⟨(parseHex r').out, 39 :: rest, false⟩ := by rw [← a1, ← a2]
                    obtain ⟨s, w, h1, h2, h3⟩ := parseHex_iff.1 this
                    rw [h1] at a3
                    simp at a3
                    subst a3
                    subst hx
                    exact hn h2 h3
                  · rename_i hx
                    rw [if_neg hx] at a2; cases a2
        · rename_i h92
          obtain ⟨a1, _, a3⟩ := charEnd_iff.1 h
          simp at a1 a3
          subst a1 a3
          exact ⟨[b], rfl, .plain h39 h92⟩
  · rintro ⟨raw, rfl, hs⟩
    cases hs with
    | plain h1 h2 =>
      rw [List.cons_append, charLit.eq_def]
      simp only [if_neg h1, if_neg h2]
      exact charEnd_iff.2 ⟨rfl, rfl, rfl⟩
    | named h1 h2 =>
      rw [List.cons_append, charLit.eq_def]
      simp only [show ¬ ((92 : UInt8) = 39) from by decide, if_false, if_true, List.cons_append, List.nil_append]
      rw [charEnd_iff]
      unfold charEscape
      rw [if_neg h2, named_iff.2 h1]
      exact ⟨rfl, rfl, rfl⟩
    | @numbered _ _ nx hn =>
      have hn' : Numbered raw v (39 :: rest) := by
        have nd : ∀ base, base ≤ 16 → NoDigit base (39 :: rest) := by
          intro base hb
          rw [noDigit_iff hb]
          intro b r h; cases h; simp [isDig, dv]; omega
        cases hn with
        | octal h1 h2 h3 _ => exact .octal h1 h2 h3 (fun _ => nd 8 (by omega))
        | octalBrace h1 h2 h3 => exact .octalBrace h1 h2 h3
        | hex h1 h2 _ => exact .hex h1 h2 (fun _ => nd 16 (by omega))
        | hexBrace h1 h2 => exact .hexBrace h1 h2
      obtain ⟨c, t, rfl, hc⟩ := numbered_head hn'
      rw [List.cons_append, List.cons_append, charLit.eq_def]
      simp only [show ¬ ((92 : UInt8) = 39) from by decide, if_false, if_true]
      have h36 : c ≠ 36 := by
        rintro rfl
        rcases hc with h | h | h
        · simp [isOct] at h
        · cases h
        · cases h
      rw [charEnd_iff]
      unfold charEscape
      rw [if_neg h36, named_oct hc]
      simp only
      by_cases hx : c = 120
      · subst hx
        rw [if_neg (by decide), if_pos rfl]
        have : parseHex (t ++ 39 :: rest) = ⟨[v], 39 :: rest, false⟩ := parseHex_iff.2 ⟨_, v, rfl, by simp, hn'⟩
        rw [this]
        exact ⟨rfl, rfl, rfl⟩
      · have ho : isOct c = true ∨ c = 111 := by
          rcases hc with h | h | h
          · exact .inl h
          · exact .inr h
          · exact absurd h hx
        rw [if_pos ho]
        have : parseOct (c :: (t ++ 39 :: rest)) = ⟨[v], 39 :: rest, false⟩ := (parseOct_iff ho).2 ⟨_, v, rfl, by simp, hn'⟩
        rw [this]
        exact ⟨rfl, rfl, rfl⟩

theorem charLit_ub {src : Bytes} : charLit src = .ub ↔ src = [] ∨ src = [92] := by
  have he : ∀ e, charEnd e ≠ .ub := by
    intro e; unfold charEnd
    split
    · split <;> simp
    · simp
  constructor
  · intro h
    match src with
    | [] => exact .inl rfl
    | b :: r =>
      rw [charLit.eq_def] at h
      simp only at h
      split at h
      · cases h
      · split at h
        · rename_i h92
          subst h92
          split at h
          · exact .inr rfl
          · exact absurd h (he _)
        · exact absurd h (he _)
  · rintro (rfl | rfl) <;> rfl

end StrLit
end SPVM
