import Verif.Model.Literal
import Verif.Spec.Literal
import Verif.Lemmas.NumStr
/-!
# Lemmas about numeric literals
-/
namespace SPVM
namespace Literal
open VM (Bytes)
open NumStr (digitLoop isSpace sign hasPrefix isDig vb dv)

theorem strip_eq (t : Bytes) : strip t = Spec.noUnderlines t := rfl

/-! ## `strtoull` on digits -/

theorem strtoull_split {base : Nat} (hb : 0 < base) (hb16 : base ≤ 16) {ds tl : Bytes} (hne : ds ≠ [])
    (hds : ∀ b ∈ ds, isDig base b = true) (htl : ∀ b r, tl = b :: r → isDig base b = false)
    (hx : base = 16 → ∀ b r, tl = b :: r → b ≠ 120 ∧ b ≠ 88) :
    (strtoull (ds ++ tl) base).rest = tl ∧
    ((strtoull (ds ++ tl) base).erange = decide (vb base 0 ds > 18446744073709551615)) ∧
    ((strtoull (ds ++ tl) base).erange = false → (strtoull (ds ++ tl) base).num = vb base 0 ds) ∧
    ((strtoull (ds ++ tl) base).erange = true → (strtoull (ds ++ tl) base).num = 18446744073709551615) := by
  obtain ⟨d, ds', rfl⟩ := List.exists_cons_of_ne_nil hne
  have hd := NumStr.isDig_lt hb16 (hds d (by simp))
  have h1 : (d :: ds' ++ tl).dropWhile isSpace = d :: ds' ++ tl := by simp [hd.1]
  have h2 : sign (d :: ds' ++ tl) = (false, d :: ds' ++ tl) := by simp [sign, hd.2.1, hd.2.2.1]
  have h3 : ¬ (base = 16 ∧ hasPrefix (d :: ds' ++ tl) = true) := by
    rintro ⟨h16, h⟩
    cases ds' with
    | nil =>
      cases tl with
      | nil => simp [hasPrefix] at h
      | cons c r =>
        have hc := hx h16 c r rfl
        simp [hasPrefix, hc] at h
    | cons c ds'' =>
      have hc := hds c (by simp)
      simp only [hasPrefix, List.cons_append, Bool.and_eq_true, Bool.or_eq_true, beq_iff_eq] at h
      rcases h.2 with rfl | rfl <;> (subst h16; simp [isDig, dv] at hc)
  obtain ⟨a, o, h | h⟩ := NumStr.digitLoop_spec hb (d :: ds' ++ tl) 0 false false
  · obtain ⟨e1, e2, e3⟩ := h
    have htw : (d :: ds' ++ tl).takeWhile (isDig base) = d :: ds' ∧ (d :: ds' ++ tl).dropWhile (isDig base) = tl := by
      exact NumStr.takeWhile_append hds htl
    rw [htw.1] at e1 e2 e3
    rw [htw.2] at e1
    unfold strtoull
    simp only [h1, h2, if_neg h3, e1]
    simp only [Bool.false_or, List.isEmpty_cons, Bool.not_false, if_true]
    simp only [Bool.false_or] at e2
    unfold convertU
    cases o with
    | true => simp [← e2]
    | false =>
      simp only [Bool.false_eq_true, if_false]
      exact ⟨trivial, e2, fun _ => e3 rfl, by simp⟩
  · omega

theorem strtoull_digits {base : Nat} (hb : 0 < base) (hb16 : base ≤ 16) {ds : Bytes} (hne : ds ≠ [])
    (hds : ∀ b ∈ ds, isDig base b = true) :
    (strtoull ds base).rest = [] ∧ ((strtoull ds base).erange = decide (vb base 0 ds > 18446744073709551615)) ∧
    ((strtoull ds base).erange = false → (strtoull ds base).num = vb base 0 ds) ∧
    ((strtoull ds base).erange = true → (strtoull ds base).num = 18446744073709551615) := by
  have := strtoull_split hb hb16 hne hds (tl := []) (by simp) (by simp)
  simpa using this

/-! ## The scans -/

theorem scanHex_span {tl : Bytes} (htl : ∀ b r, tl = b :: r → isHex b = false ∧ b ≠ 95 ∧ b ≠ 46 ∧ b ≠ 112 ∧ b ≠ 80) :
    ∀ {t : Bytes}, (∀ b ∈ t, isHex b = true ∨ b = 95) → scanHex false (t ++ tl) = (t, tl)
  | [], _ => by
    cases tl with
    | nil => rfl
    | cons b r =>
      have h := htl b r rfl
      simp only [List.nil_append, scanHex]
      split
      · rename_i hc
        rcases hc with h' | h' | h' | h' | h' | h'
        · rw [h.1] at h'; cases h'
        · exact absurd h' h.2.1
        · exact absurd h' h.2.2.1
        · exact absurd h' h.2.2.2.1
        · exact absurd h' h.2.2.2.2
        · rw [if_pos ⟨trivial, h'⟩]
      · rfl
  | b :: t, ht => by
    have hb := ht b (by simp)
    have hn : b ≠ 45 ∧ b ≠ 43 ∧ b ≠ 112 ∧ b ≠ 80 := by
      refine ⟨?_, ?_, ?_, ?_⟩ <;> (rintro rfl; revert hb; decide)
    rw [List.cons_append, scanHex, if_pos (by rcases hb with h | h; exact .inl h; exact .inr (.inl h)),
      if_neg (by rintro ⟨_, h | h⟩; exact hn.1 h; exact hn.2.1 h)]
    have e1 : (b == 112) = false := by simpa using hn.2.2.1
    have e2 : (b == 80) = false := by simpa using hn.2.2.2
    simp only [e1, e2, Bool.or_self]
    rw [scanHex_span htl (fun x hx => ht x (by simp [hx]))]

theorem scanOct_span {tl : Bytes} (htl : ∀ b r, tl = b :: r → isDec b = false ∧ b ≠ 95) :
    ∀ {t : Bytes}, (∀ b ∈ t, isDec b = true ∨ b = 95) → scanOct (t ++ tl) = (t, tl)
  | [], _ => by
    cases tl with
    | nil => rfl
    | cons b r =>
      have h := htl b r rfl
      simp [scanOct, h.1, h.2]
  | b :: t, ht => by
    have hb := ht b (by simp)
    rw [List.cons_append, scanOct, if_pos hb, scanOct_span htl (fun x hx => ht x (by simp [hx]))]

theorem isDec_ne {b : UInt8} (h : isDec b = true ∨ b = 95) :
    b ≠ 45 ∧ b ≠ 43 ∧ b ≠ 46 ∧ b ≠ 101 ∧ b ≠ 69 := by
  refine ⟨?_, ?_, ?_, ?_, ?_⟩ <;> (rintro rfl; revert h; decide)

theorem isDec_ne' {b : UInt8} (h : isDec b = true ∨ b = 95) :
    (b == 45) = false ∧ (b == 43) = false ∧ (b == 46) = false ∧ (b == 101) = false ∧ (b == 69) = false := by
  have := isDec_ne h
  simp [this]

/-- Digits and underlines pass the loop whatever the flag is. -/
theorem scanDec_digits {e : Bool} {tl : Bytes} : ∀ {t : Bytes}, (∀ b ∈ t, isDec b = true ∨ b = 95) →
    scanDec e (t ++ tl) = (t ++ (scanDec e tl).1, (scanDec e tl).2)
  | [], _ => rfl
  | b :: t, ht => by
    have hb := ht b (by simp)
    have hn := isDec_ne hb
    have hn' := isDec_ne' hb
    rw [List.cons_append, scanDec, if_pos (by rcases hb with h | h; exact .inl h; exact .inr (.inr (.inr (.inr (.inr (.inr h)))))),
      if_neg (by rintro ⟨_, h | h⟩; exact hn.1 h; exact hn.2.1 h)]
    rw [hn'.2.2.1, hn'.2.2.2.1, hn'.2.2.2.2]
    simp only [Bool.or_false]
    rw [scanDec_digits (fun x hx => ht x (by simp [hx]))]
    rfl

/-- The loop stops before `tl`. -/
theorem scanDec_stop {e : Bool} {tl : Bytes} (htl : ∀ b r, tl = b :: r → isDec b = false ∧ b ≠ 95 ∧ b ≠ 46 ∧ b ≠ 101 ∧ b ≠ 69)
    (hs : e = true → ∀ b r, tl = b :: r → b ≠ 45 ∧ b ≠ 43) : scanDec e tl = ([], tl) := by
  cases tl with
  | nil => rfl
  | cons b r =>
    have h := htl b r rfl
    rw [scanDec]
    split
    · rename_i hc
      by_cases he : e = true
      · have h2 := hs he b r rfl
        simp [h, h2] at hc
      · have he' : e = false := by simpa using he
        rw [if_pos]
        refine ⟨he', ?_⟩
        simpa [h] using hc
    · rfl

/-! ## The value -/

theorem toSigned_small {half n : Nat} (h : n < 2 * half) :
    toSigned half n = if n < half then (n : Int) else n - (2 * half : Nat) := by
  unfold toSigned
  rw [Nat.mod_eq_of_lt h]

theorem toSigned_neg {half n : Nat} (hh : half = 2147483648 ∨ half = 9223372036854775808) (h : n ≤ half) :
    toSigned half ((18446744073709551616 - n) % 18446744073709551616) = -(n : Int) := by
  unfold toSigned
  rcases hh with rfl | rfl <;> split <;> omega

theorem toSigned_min {half n : Nat} (h0 : 0 < half) : toSigned half n = -(half : Int) ↔ n % (2 * half) = half := by
  unfold toSigned
  have := Nat.mod_lt n (show 0 < 2 * half by omega)
  split <;> omega

/-- The value of an integer literal whose digits denote `n`. -/
theorem intValue_digits {half base n : Nat} {msg : String} {minus : Bool} {text ds : Bytes}
    (hh : half = 2147483648 ∨ half = 9223372036854775808) (hb : base = 2 ∨ base = 8 ∨ base = 10 ∨ base = 16)
    (hd : text.drop (startOffset base) = ds) (hden : Spec.Denotes base ds n) :
    (base = 10 → intValue half msg base minus text =
      if minus then (if n ≤ half then .ok (-(n : Int)) else .die msg) else (if n < half then .ok n else .die msg)) ∧
    (base ≠ 10 → (minus = true → n % (2 * half) ≠ half) → intValue half msg base minus text =
      if n < 2 * half then
        .ok (if minus then -(if n < half then (n : Int) else n - (2 * half : Nat))
          else if n < half then (n : Int) else n - (2 * half : Nat))
      else .die msg) ∧
    (base ≠ 10 → minus = true → n % (2 * half) = half → n ≤ 18446744073709551615 →
      intValue half msg base minus text = .ub) := by
  obtain ⟨h1, h2, h3⟩ := NumStr.denotes_vb hden
  have hb0 : 0 < base := by omega
  have hh0 : 0 < half := by omega
  have hh2 : 2 * half ≤ 18446744073709551616 := by omega
  obtain ⟨e1, e2, e3, e4⟩ := strtoull_digits hb0 (by omega) h1 h2
  rw [h3] at e2 e3
  unfold intValue
  simp only [hd, e1, ne_eq, not_true_eq_false, if_false]
  generalize (strtoull ds base).num = m at *
  generalize (strtoull ds base).erange = er at *
  refine ⟨fun h10 => ?_, fun h10 hn => ?_, fun h10 hm hn hr => ?_⟩
  · have hc : ¬ (base = 16 ∨ base = 8 ∨ base = 2) := by omega
    simp only [if_neg hc]
    cases er with
    | true =>
      have hr : n > 18446744073709551615 := by simpa using e2.symm
      cases minus <;> simp <;> omega
    | false =>
      have hm := e3 rfl
      subst hm
      cases minus
      · simp only [Bool.false_eq_true, if_false, decide_eq_true_eq]
        by_cases h : m < half
        · rw [if_neg (by omega), if_pos h, toSigned_small (by omega), if_pos h]
        · rw [if_pos (by omega), if_neg h]
      · simp only [Bool.false_eq_true, if_false, if_true, decide_eq_true_eq]
        by_cases h : m ≤ half
        · rw [if_neg (by omega), if_pos h, toSigned_neg hh h]
        · rw [if_pos (by omega), if_neg h]
  · have hc : base = 16 ∨ base = 8 ∨ base = 2 := by omega
    simp only [if_pos hc]
    cases er with
    | true =>
      have hr : n > 18446744073709551615 := by simpa using e2.symm
      have hm := e4 rfl
      rw [if_neg (show ¬ n < 2 * half by omega)]
      cases minus
      · simp
      · have : toSigned half m ≠ -(half : Int) := by
          rw [ne_eq, toSigned_min hh0, hm]
          rcases hh with rfl | rfl <;> decide
        simp [if_neg this]
    | false =>
      have hm := e3 rfl
      subst hm
      cases minus
      · simp only [Bool.false_eq_true, if_false, decide_eq_true_eq]
        by_cases h : m < 2 * half
        · rw [if_neg (by omega), if_pos h, toSigned_small h]
        · rw [if_pos (by omega), if_neg h]
      · have : toSigned half m ≠ -(half : Int) := by
          rw [ne_eq, toSigned_min hh0]; exact hn rfl
        simp only [Bool.false_eq_true, if_false, if_true, decide_eq_true_eq, if_neg this]
        by_cases h : m < 2 * half
        · rw [if_neg (by omega), if_pos h, toSigned_small h]
        · rw [if_pos (by omega), if_neg h]
  · have hc : base = 16 ∨ base = 8 ∨ base = 2 := by omega
    have her : er = false := by rw [e2]; simpa using hr
    have hm' := e3 her
    subst hm' hm
    have : toSigned half m = -(half : Int) := (toSigned_min hh0).2 hn
    simp only [if_pos hc, if_pos this, if_true]

/-! ## The parts of a literal -/

theorem isDig_hex {b : UInt8} (h : isDig 16 b = true) : isHex b = true := by
  unfold isDig dv at h
  unfold isHex isDec
  simp at h ⊢
  split at h
  · omega
  · split at h
    · omega
    · split at h <;> omega

theorem isDig_dec {base : Nat} (hb : base ≤ 10) {b : UInt8} (h : isDig base b = true) : isDec b = true := by
  unfold isDig dv at h
  unfold isDec
  simp at h ⊢
  split at h
  · omega
  · split at h
    · omega
    · split at h <;> omega

theorem body_mem {base : Nat} {body : Bytes} {n : Nat} (h : Spec.Denotes base (Spec.noUnderlines body) n) :
    ∀ b ∈ body, isDig base b = true ∨ b = 95 := by
  intro b hb
  by_cases h95 : b = 95
  · exact .inr h95
  · left
    apply (NumStr.denotes_vb h).2.1
    simp [Spec.noUnderlines, hb, h95]

theorem body_ne {base : Nat} {body : Bytes} {n : Nat} (h : Spec.Denotes base (Spec.noUnderlines body) n) : body ≠ [] := by
  rintro rfl
  exact (NumStr.denotes_vb h).1 rfl

/-- The suffix of an integer literal. -/
def SufInt (ty : Ty) (sfx : Bytes) : Prop := (ty = .int ∧ sfx = []) ∨ (ty = .long ∧ (sfx = [76] ∨ sfx = [108]))

theorem word_ne {rest : Bytes} (h : Spec.LitEnd rest) {b : UInt8} {r : Bytes} (he : rest = b :: r) :
    isHex b = false ∧ isDec b = false ∧ b ≠ 95 ∧ b ≠ 46 ∧ b ≠ 112 ∧ b ≠ 80 ∧ b ≠ 101 ∧ b ≠ 69 ∧ b ≠ 120 ∧ b ≠ 88 ∧
      b ≠ 98 ∧ b ≠ 66 ∧ b ≠ 108 ∧ b ≠ 76 ∧ b ≠ 102 ∧ b ≠ 70 ∧ b ≠ 100 ∧ b ≠ 68 := by
  have hw := h b r he
  unfold Spec.IsWord at hw
  refine ⟨?_, ?_, ?_⟩
  · unfold isHex isDec; simp; omega
  · unfold isDec; simp; omega
  · have hne : ∀ c : UInt8, Spec.IsWord c → b ≠ c := by
      rintro c hc rfl; exact h b r he hc
    refine ⟨hne _ ?_, hne _ ?_, hne _ ?_, hne _ ?_, hne _ ?_, hne _ ?_, hne _ ?_, hne _ ?_, hne _ ?_, hne _ ?_, hne _ ?_,
      hne _ ?_, hne _ ?_, hne _ ?_, hne _ ?_, hne _ ?_⟩ <;> (unfold Spec.IsWord; decide)

theorem tail_ne {ty : Ty} {sfx rest : Bytes} (hs : SufInt ty sfx) (h : Spec.LitEnd rest) {b : UInt8} {r : Bytes}
    (he : sfx ++ rest = b :: r) :
    isHex b = false ∧ isDec b = false ∧ b ≠ 95 ∧ b ≠ 46 ∧ b ≠ 112 ∧ b ≠ 80 ∧ b ≠ 101 ∧ b ≠ 69 ∧ b ≠ 120 ∧ b ≠ 88 ∧
      b ≠ 98 ∧ b ≠ 66 := by
  rcases hs with ⟨_, rfl⟩ | ⟨_, rfl | rfl⟩
  · obtain ⟨h1, h2, h3, h4, h5, h6, h7, h8, h9, h10, h11, h12, _⟩ := word_ne h (by simpa using he)
    exact ⟨h1, h2, h3, h4, h5, h6, h7, h8, h9, h10, h11, h12⟩
  · simp at he; rw [← he.1]; decide
  · simp at he; rw [← he.1]; decide

theorem suffix_int {ty : Ty} {sfx rest : Bytes} (hs : SufInt ty sfx) (h : Spec.LitEnd rest) :
    suffix false (sfx ++ rest) = (ty, rest) := by
  rcases hs with ⟨rfl, rfl⟩ | ⟨rfl, rfl | rfl⟩
  · cases rest with
    | nil => rfl
    | cons b r =>
      have := word_ne h (b := b) (r := r) rfl
      simp [suffix, this]
  · simp [suffix]
  · simp [suffix]

theorem strip_dig {t : Bytes} : strip (48 :: t) = 48 :: strip t := by simp [strip]

/-- The scan of an integer literal. -/
theorem scan_int {base n : Nat} {pre body : Bytes} {ty : Ty} {sfx rest : Bytes} (hp : Spec.Prefix base pre)
    (hb : Spec.Body base body n) (hs : SufInt ty sfx) (he : Spec.LitEnd rest) :
    baseOf (pre ++ body ++ sfx ++ rest) = base ∧
    ∃ text, scan (pre ++ body ++ sfx ++ rest) = .ok ⟨text, sfx ++ rest, false⟩ ∧
      text.drop (startOffset base) = Spec.noUnderlines body := by
  have hm := body_mem hb.1
  obtain ⟨d, t, hdt⟩ := List.exists_cons_of_ne_nil (body_ne hb.1)
  have htl := fun b r (h : sfx ++ rest = b :: r) => tail_ne hs he h
  rcases hp with ⟨rfl, hp⟩ | ⟨rfl, hp⟩ | ⟨rfl, rfl⟩ | ⟨rfl, rfl⟩
  · have hbase : ∀ x, baseOf (48 :: 120 :: x) = 16 ∧ baseOf (48 :: 88 :: x) = 16 := fun x => ⟨rfl, rfl⟩
    have hspan := scanHex_span (tl := sfx ++ rest) (t := t) (fun b r h => by
      obtain ⟨h1, _, h3, h4, h5, h6, _⟩ := htl b r h; exact ⟨h1, h3, h4, h5, h6⟩)
      (fun b hb' => (hm b (by simp [hdt, hb'])).imp isDig_hex id)
    have hany : ∀ b ∈ t, ¬ (b = 46 ∨ b = 112 ∨ b = 80) := by
      intro b hb' hc
      rcases hm b (by simp [hdt, hb']) with h | h
      · have := isDig_hex h; rcases hc with rfl | rfl | rfl <;> simp [isHex, isDec] at this
      · subst h; simp at hc
    have ha1 : t.any (fun b => b == 46 || b == 112 || b == 80) = false := by
      rw [List.any_eq_false]; intro b hb'; have := hany b hb'; simp [not_or] at this; simp [this]
    have ha2 : t.any (fun b => b == 112 || b == 80) = false := by
      rw [List.any_eq_false]; intro b hb'; have := hany b hb'; simp; simp [not_or] at this; exact this.2
    have key : ∀ x, x = 120 ∨ x = 88 → scan16 (48 :: x :: d :: (t ++ (sfx ++ rest))) =
        .ok ⟨strip (48 :: x :: d :: t), sfx ++ rest, false⟩ := by
      intro x hx
      simp only [scan16, hspan, ha1, ha2, Bool.false_eq_true, false_and, if_false]
    rcases hp with rfl | rfl
    · have e : [48, 120] ++ body ++ sfx ++ rest = 48 :: 120 :: d :: (t ++ (sfx ++ rest)) := by simp [hdt]
      rw [e]
      refine ⟨(hbase _).1, strip (48 :: 120 :: d :: t), ?_, ?_⟩
      · unfold scan; rw [if_pos (hbase _).1]; exact key 120 (.inl rfl)
      · rw [hdt]; simp [strip, startOffset, Spec.noUnderlines]
    · have e : [48, 88] ++ body ++ sfx ++ rest = 48 :: 88 :: d :: (t ++ (sfx ++ rest)) := by simp [hdt]
      rw [e]
      refine ⟨(hbase _).2, strip (48 :: 88 :: d :: t), ?_, ?_⟩
      · unfold scan; rw [if_pos (hbase _).2]; exact key 88 (.inr rfl)
      · rw [hdt]; simp [strip, startOffset, Spec.noUnderlines]
  · have hspan := scanOct_span (tl := sfx ++ rest) (t := body) (fun b r h => by
      obtain ⟨_, h2, h3, _⟩ := htl b r h; exact ⟨h2, h3⟩)
      (fun b hb' => (hm b hb').imp (isDig_dec (by omega)) id)
    rcases hp with rfl | rfl
    · have e : [48, 98] ++ body ++ sfx ++ rest = 48 :: 98 :: (body ++ (sfx ++ rest)) := by simp
      have hbase : baseOf (48 :: 98 :: (body ++ (sfx ++ rest))) = 2 := rfl
      rw [e]
      refine ⟨hbase, strip (48 :: 98 :: body), ?_, by simp [strip, startOffset, Spec.noUnderlines]⟩
      unfold scan
      rw [hbase, if_neg (by decide), if_pos (.inr rfl), scan8, hspan]
    · have e : [48, 66] ++ body ++ sfx ++ rest = 48 :: 66 :: (body ++ (sfx ++ rest)) := by simp
      have hbase : baseOf (48 :: 66 :: (body ++ (sfx ++ rest))) = 2 := rfl
      rw [e]
      refine ⟨hbase, strip (48 :: 66 :: body), ?_, by simp [strip, startOffset, Spec.noUnderlines]⟩
      unfold scan
      rw [hbase, if_neg (by decide), if_pos (.inr rfl), scan8, hspan]
  · have hspan := scanOct_span (tl := sfx ++ rest) (t := t) (fun b r h => by
      obtain ⟨_, h2, h3, _⟩ := htl b r h; exact ⟨h2, h3⟩)
      (fun b hb' => (hm b (by simp [hdt, hb'])).imp (isDig_dec (by omega)) id)
    have e : [48] ++ body ++ sfx ++ rest = 48 :: d :: (t ++ (sfx ++ rest)) := by simp [hdt]
    have hd : isDec d = true ∨ d = 95 := (hm d (by simp [hdt])).imp (isDig_dec (by omega)) id
    have hbase : baseOf (48 :: d :: (t ++ (sfx ++ rest))) = 8 := by
      have h1 : ¬ (d = 120 ∨ d = 88) := by rintro (rfl | rfl) <;> revert hd <;> decide
      have h2 : ¬ (d = 98 ∨ d = 66) := by rintro (rfl | rfl) <;> revert hd <;> decide
      simp only [baseOf, if_true, if_neg h1, if_neg h2, if_pos hd]
    rw [e]
    refine ⟨hbase, strip (48 :: d :: t), ?_, by rw [hdt]; simp [strip, startOffset, Spec.noUnderlines]⟩
    unfold scan
    rw [hbase, if_neg (by decide), if_pos (.inl rfl), scan8, hspan]
  · have hspan := scanDec_digits (e := false) (tl := sfx ++ rest) (t := t)
      (fun b hb' => (hm b (by simp [hdt, hb'])).imp (isDig_dec (by omega)) id)
    have hstop := scanDec_stop (e := false) (tl := sfx ++ rest) (fun b r h => by
      obtain ⟨_, h2, h3, h4, _, _, h7, h8, _⟩ := htl b r h; exact ⟨h2, h3, h4, h7, h8⟩) (by simp)
    rw [hstop] at hspan
    simp only [List.append_nil] at hspan
    have e : [] ++ body ++ sfx ++ rest = d :: (t ++ (sfx ++ rest)) := by simp [hdt]
    have hbase : baseOf (d :: (t ++ (sfx ++ rest))) = 10 := by
      rcases hb.2 rfl with h | ⟨d', t', h, h0, _⟩
      · rw [hdt] at h
        simp at h
        obtain ⟨rfl, rfl⟩ := h
        simp only [List.nil_append]
        cases htl' : sfx ++ rest with
        | nil => rfl
        | cons b r =>
          obtain ⟨_, h2, h3, _, _, _, _, _, h9, h10, h11, h12⟩ := htl b r htl'
          simp [baseOf, h2, h3, h9, h10, h11, h12]
      · rw [hdt] at h
        simp at h
        have : d ≠ 48 := by rw [h.1]; exact h0
        cases t ++ (sfx ++ rest) with
        | nil => rfl
        | cons b r => simp [baseOf, this]
    have ha : t.any (fun b => b == 46 || b == 101 || b == 69) = false := by
      rw [List.any_eq_false]
      intro b hb'
      have := isDec_ne ((hm b (by simp [hdt, hb'])).imp (isDig_dec (by omega)) id)
      simp [this]
    rw [e]
    refine ⟨hbase, strip (d :: t), ?_, by rw [hdt]; simp [strip, startOffset, Spec.noUnderlines]⟩
    unfold scan
    rw [hbase, if_neg (by decide), if_neg (by decide), scan10]
    simp only [hspan, ha]

end Literal
end SPVM
