import Verif.Model.Utf8
import Verif.Spec.Utf8
import Verif.Lemmas.FnStr
/-! Lemmas on the UTF-8 decoder. -/
set_option linter.unusedSimpArgs false
set_option linter.unusedVariables false
namespace SPVM
namespace Utf8
open VM (Bytes)
open Spec.Utf8 (IsScalar encode encodeAll Stuck Valid trMap)

theorem utfCont_eq (c : UInt8) : utfCont c.toNat = decide (0x80 ≤ c.toNat ∧ c.toNat < 0xc0) := by
  revert c
  decide +kernel

/-- Decoding of one character as arithmetic. -/
def dec (rest : Bytes) : Option (Nat × Nat) :=
  match rest with
  | [] => none
  | b0 :: t =>
    let u := b0.toNat
    if u < 0x80 then some (u, 1)
    else if u < 0xc2 ∨ 0xf4 < u then none
    else if u < 0xe0 then
      match t with
      | c1 :: _ =>
        if 0x80 ≤ c1.toNat ∧ c1.toNat < 0xc0 then some ((u - 0xc0) * 64 + (c1.toNat - 0x80), 2) else none
      | _ => none
    else if u < 0xf0 then
      match t with
      | c1 :: c2 :: _ =>
        if (0x80 ≤ c1.toNat ∧ c1.toNat < 0xc0) ∧ (0x80 ≤ c2.toNat ∧ c2.toNat < 0xc0) ∧ ¬ (u = 0xed ∧ c1.toNat > 0x9f) ∧
          ¬ (u - 0xe0) * 4096 + (c1.toNat - 0x80) * 64 + (c2.toNat - 0x80) < 0x800
        then some ((u - 0xe0) * 4096 + (c1.toNat - 0x80) * 64 + (c2.toNat - 0x80), 3) else none
      | _ => none
    else
      match t with
      | c1 :: c2 :: c3 :: _ =>
        if (0x80 ≤ c1.toNat ∧ c1.toNat < 0xc0) ∧ (0x80 ≤ c2.toNat ∧ c2.toNat < 0xc0) ∧ (0x80 ≤ c3.toNat ∧ c3.toNat < 0xc0) ∧
          ¬ (u = 0xf0 ∧ c1.toNat < 0x90) ∧ ¬ (u = 0xf4 ∧ c1.toNat > 0x8f)
        then some ((u - 0xf0) * 262144 + (c1.toNat - 0x80) * 4096 + (c2.toNat - 0x80) * 64 + (c3.toNat - 0x80), 4) else none
      | _ => none

theorem readB_append (a b : Bytes) (k : Nat) : readB (a ++ b) (a.length + k) = readB b k := by
  unfold readB
  rw [List.getElem?_append_right (by omega)]
  simp

theorem and3f (x : Nat) : x &&& 0x3f = x % 64 := Nat.and_two_pow_sub_one_eq_mod x 6
theorem and1f (x : Nat) : x &&& 0x1f = x % 32 := Nat.and_two_pow_sub_one_eq_mod x 5
theorem and0f (x : Nat) : x &&& 0xf = x % 16 := Nat.and_two_pow_sub_one_eq_mod x 4
theorem and07 (x : Nat) : x &&& 7 = x % 8 := Nat.and_two_pow_sub_one_eq_mod x 3

theorem or_shift (a b n : Nat) (h : b < 2 ^ n) : (a <<< n) ||| b = a * 2 ^ n + b := by
  rw [← Nat.shiftLeft_add_eq_or_of_lt h, Nat.shiftLeft_eq]

theorem join2 (a b : Nat) (hb : b < 64) : (a <<< 6) ||| b = a * 64 + b := or_shift a b 6 hb

theorem join3 (a b c : Nat) (hb : b < 64) (hc : c < 64) : (a <<< 12) ||| (b <<< 6) ||| c = a * 4096 + b * 64 + c := by
  rw [Nat.or_assoc, join2 b c hc, or_shift a _ 12 (by omega)]
  omega

theorem join4 (a b c d : Nat) (hb : b < 64) (hc : c < 64) (hd : d < 64) :
    (a <<< 18) ||| (b <<< 12) ||| (c <<< 6) ||| d = a * 262144 + b * 4096 + c * 64 + d := by
  rw [Nat.or_assoc, Nat.or_assoc, ← Nat.or_assoc (b <<< 12), join3 b c d hc hd, or_shift a _ 18 (by omega)]
  omega

/-- The answer of the decoder as a pair. -/
def ans (o : Option (Nat × Nat)) : Int × Int :=
  match o with
  | some (cp, n) => (n, cp)
  | none => (-3, -1)

theorem utfCont_nul : utfCont 0 = false := rfl

set_option maxRecDepth 4000 in
/-- The decoder computes `dec` of the remaining bytes, for every claimed length that covers them, thanks to the
terminating NUL. -/
theorem iterate_eq (pre : Bytes) (b0 : UInt8) (t : Bytes) (len : Int) (hlen : (t.length : Int) + 1 ≤ len) :
    iterate (pre ++ b0 :: t ++ [0]) pre.length len = .ok (ans (dec (b0 :: t))) := by
  have hr : ∀ k, readB (pre ++ b0 :: t ++ [0]) (pre.length + k) = readB (b0 :: t ++ [0]) k := by
    intro k
    rw [List.append_assoc, readB_append]
  have h0 : readB (pre ++ b0 :: t ++ [0]) pre.length = .ok b0.toNat := by
    have := hr 0
    rw [Nat.add_zero] at this
    rw [this]
    rfl
  have hb := b0.toNat_lt
  generalize hB : pre ++ b0 :: t ++ [0] = B at hr h0 ⊢
  have hr1 := hr 1
  have hr2 := hr 2
  have hr3 := hr 3
  have hs2 : pre.length + 1 + 1 = pre.length + 2 := rfl
  have hs3 : pre.length + 1 + 2 = pre.length + 3 := rfl
  have hs4 : pre.length + 2 + 1 = pre.length + 3 := rfl
  unfold iterate
  rw [if_neg (by omega)]
  simp only [h0, Out.ok_bind]
  by_cases h1 : b0.toNat < 0x80
  · rw [if_pos h1]
    simp [dec, h1, ans]
  rw [if_neg h1]
  by_cases h2 : b0.toNat < 0xc2 ∨ 0xf4 < b0.toNat
  · rw [if_pos (by omega)]
    simp only [dec]
    rw [if_neg h1, if_pos h2]
    rfl
  rw [if_neg (by omega)]
  have hln : ¬ len < 0 := by omega
  rw [if_neg hln]
  by_cases h3 : b0.toNat < 0xe0
  · rw [if_pos h3]
    unfold iterate2 haveConts
    simp only [conts]
    rw [hr1]
    simp only [dec]
    rw [if_neg h1, if_neg h2, if_pos h3]
    match t, hlen with
    | [], _ =>
      simp only [readB, List.nil_append, List.cons_append, List.getElem?_cons_succ, List.getElem?_cons_zero]
      split <;> simp [ans, utfCont_nul]
    | c1 :: t, hlen =>
      simp only [List.length_cons] at hlen
      rw [if_neg (by omega)]
      simp only [readB, List.cons_append, List.getElem?_cons_succ, List.getElem?_cons_zero, Out.ok_bind, utfCont_eq, decide_eq_true_eq]
      by_cases hc : 0x80 ≤ c1.toNat ∧ c1.toNat < 0xc0
      · simp only [if_pos hc, ans]
        rw [and3f, and1f, join2 _ _ (by omega)]
        have : b0.toNat % 32 * 64 + c1.toNat % 64 = (b0.toNat - 192) * 64 + (c1.toNat - 128) := by omega
        simp [this]
      · simp [if_neg hc, ans]
  rw [if_neg h3]
  by_cases h4 : b0.toNat < 0xf0
  · rw [if_pos h4]
    unfold iterate3 haveConts
    simp only [conts]
    rw [hs2, hr1, hr2]
    simp only [dec]
    rw [if_neg h1, if_neg h2, if_neg h3, if_pos h4]
    match t, hlen with
    | [], _ =>
      simp only [readB, List.nil_append, List.cons_append, List.getElem?_cons_succ, List.getElem?_cons_zero]
      split <;> simp [ans, utfCont_nul]
    | [c1], _ =>
      simp only [readB, List.nil_append, List.cons_append, List.getElem?_cons_succ, List.getElem?_cons_zero, Out.ok_bind,
        utfCont_nul]
      split
      · simp [ans]
      · split <;> simp [ans, utfCont_nul]
    | c1 :: c2 :: t, hlen =>
      simp only [List.length_cons] at hlen
      rw [if_neg (by omega)]
      simp only [readB, List.cons_append, List.getElem?_cons_succ, List.getElem?_cons_zero, Out.ok_bind, utfCont_eq, decide_eq_true_eq]
      by_cases hc : 0x80 ≤ c1.toNat ∧ c1.toNat < 0xc0
      · by_cases hd : 0x80 ≤ c2.toNat ∧ c2.toNat < 0xc0
        · simp only [if_pos hc, if_pos hd, Out.ok_bind]
          rw [and3f, and3f, and0f, join3 _ _ _ (by omega) (by omega)]
          have : b0.toNat % 16 * 4096 + c1.toNat % 64 * 64 + c2.toNat % 64 =
              (b0.toNat - 224) * 4096 + (c1.toNat - 128) * 64 + (c2.toNat - 128) := by omega
          rw [this]
          simp only [not_true_eq_false, if_false]
          by_cases he : b0.toNat = 0xed ∧ c1.toNat > 0x9f
          · rw [if_pos he, if_neg (by simp [he])]
            rfl
          · rw [if_neg he]
            by_cases hf : (b0.toNat - 224) * 4096 + (c1.toNat - 128) * 64 + (c2.toNat - 128) < 0x800
            · rw [if_pos hf, if_neg (by intro h; exact h.2.2.2 hf)]
              rfl
            · rw [if_neg hf, if_pos ⟨hc, hd, he, hf⟩]
              rfl
        · simp only [if_pos hc, if_neg hd, Out.ok_bind, Bool.false_eq_true, not_false_eq_true, if_true]
          rw [if_neg (by intro h; exact hd h.2.1)]
          rfl
      · simp only [if_neg hc, Out.ok_bind, Bool.false_eq_true, not_false_eq_true, if_true]
        rw [if_neg (by intro h; exact hc h.1)]
        rfl
  · rw [if_neg h4]
    unfold iterate4 haveConts
    simp only [conts]
    rw [hs2, hs3, hs4, hr1, hr2, hr3]
    simp only [dec]
    rw [if_neg h1, if_neg h2, if_neg h3, if_neg h4]
    match t, hlen with
    | [], _ =>
      simp only [readB, List.nil_append, List.cons_append, List.getElem?_cons_succ, List.getElem?_cons_zero]
      split <;> simp [ans, utfCont_nul]
    | [c1], _ =>
      simp only [readB, List.nil_append, List.cons_append, List.getElem?_cons_succ, List.getElem?_cons_zero, Out.ok_bind,
        utfCont_nul]
      split
      · simp [ans]
      · split <;> simp [ans, utfCont_nul]
    | [c1, c2], _ =>
      simp only [readB, List.nil_append, List.cons_append, List.getElem?_cons_succ, List.getElem?_cons_zero, Out.ok_bind,
        utfCont_nul]
      split
      · simp [ans]
      · split
        · split <;> simp [ans, utfCont_nul]
        · simp [ans]
    | c1 :: c2 :: c3 :: t, hlen =>
      simp only [List.length_cons] at hlen
      rw [if_neg (by omega)]
      simp only [readB, List.cons_append, List.getElem?_cons_succ, List.getElem?_cons_zero, Out.ok_bind, utfCont_eq, decide_eq_true_eq]
      by_cases hc : 0x80 ≤ c1.toNat ∧ c1.toNat < 0xc0
      · by_cases hd : 0x80 ≤ c2.toNat ∧ c2.toNat < 0xc0
        · by_cases he : 0x80 ≤ c3.toNat ∧ c3.toNat < 0xc0
          · simp only [if_pos hc, if_pos hd, if_pos he, Out.ok_bind]
            rw [and3f, and3f, and3f, and07, join4 _ _ _ _ (by omega) (by omega) (by omega)]
            have : b0.toNat % 8 * 262144 + c1.toNat % 64 * 4096 + c2.toNat % 64 * 64 + c3.toNat % 64 =
                (b0.toNat - 240) * 262144 + (c1.toNat - 128) * 4096 + (c2.toNat - 128) * 64 + (c3.toNat - 128) := by omega
            rw [this]
            simp only [not_true_eq_false, if_false]
            by_cases hf : b0.toNat = 0xf0 ∧ c1.toNat < 0x90
            · rw [if_pos hf, if_neg (by intro h; exact h.2.2.2.1 hf)]
              rfl
            · rw [if_neg hf]
              by_cases hg : b0.toNat = 0xf4 ∧ c1.toNat > 0x8f
              · rw [if_pos ⟨by omega, hg⟩, if_neg (by intro h; exact h.2.2.2.2 hg)]
                rfl
              · rw [if_neg (fun h => hg h.2), if_pos ⟨hc, hd, he, hf, hg⟩]
                rfl
          · simp only [if_pos hc, if_pos hd, if_neg he, Out.ok_bind, Bool.false_eq_true, not_false_eq_true, if_true]
            rw [if_neg (by intro h; exact he h.2.2.1)]
            rfl
        · simp only [if_pos hc, if_neg hd, Out.ok_bind, Bool.false_eq_true, not_false_eq_true, if_true]
          rw [if_neg (by intro h; exact hd h.2.1)]
          rfl
      · simp only [if_neg hc, Out.ok_bind, Bool.false_eq_true, not_false_eq_true, if_true]
        rw [if_neg (by intro h; exact hc h.1)]
        rfl

theorem ofNat_toNat (n : Nat) (h : n < 256) : (UInt8.ofNat n).toNat = n := by
  simp [UInt8.toNat_ofNat, Nat.mod_eq_of_lt h]

/-- The decoder recognises every encoded scalar value. -/
theorem dec_encode (cp : Nat) (h : IsScalar cp) (t : Bytes) : dec (encode cp ++ t) = some (cp, (encode cp).length) := by
  unfold IsScalar at h
  unfold encode
  split
  · rename_i h1
    simp only [List.cons_append, List.nil_append, dec]
    rw [ofNat_toNat _ (by omega), if_pos h1]
    rfl
  · split
    · simp only [List.cons_append, List.nil_append, dec]
      rw [ofNat_toNat _ (by omega), ofNat_toNat _ (by omega), if_neg (by omega), if_neg (by omega), if_pos (by omega),
        if_pos (by omega)]
      simp only [List.length_cons, List.length_nil, Option.some.injEq, Prod.mk.injEq, and_true]
      omega
    · split
      · simp only [List.cons_append, List.nil_append, dec]
        rw [ofNat_toNat _ (by omega), ofNat_toNat _ (by omega), ofNat_toNat _ (by omega), if_neg (by omega), if_neg (by omega),
          if_neg (by omega), if_pos (by omega), if_pos (by omega)]
        simp only [List.length_cons, List.length_nil, Option.some.injEq, Prod.mk.injEq, and_true]
        omega
      · simp only [List.cons_append, List.nil_append, dec]
        rw [ofNat_toNat _ (by omega), ofNat_toNat _ (by omega), ofNat_toNat _ (by omega), ofNat_toNat _ (by omega),
          if_neg (by omega), if_neg (by omega), if_neg (by omega), if_neg (by omega), if_pos (by omega)]
        simp only [List.length_cons, List.length_nil, Option.some.injEq, Prod.mk.injEq, and_true]
        omega

theorem eq_ofNat (c : UInt8) (n : Nat) (h : c.toNat = n) : c = UInt8.ofNat n := by
  rw [← h]; simp

/-- The decoder accepts nothing else. -/
theorem dec_sound {rest : Bytes} {cp n : Nat} (h : dec rest = some (cp, n)) :
    IsScalar cp ∧ (encode cp).length = n ∧ ∃ t, rest = encode cp ++ t := by
  unfold dec at h
  split at h
  · cases h
  rename_i b0 t
  have hb0 := b0.toNat_lt
  simp only [] at h
  split at h
  · rename_i h1
    simp only [Option.some.injEq, Prod.mk.injEq] at h
    obtain ⟨rfl, rfl⟩ := h
    refine ⟨by unfold IsScalar; omega, ?_, t, ?_⟩
    · simp [encode, h1]
    · unfold encode
      rw [if_pos h1]
      simp
  split at h
  · cases h
  split at h
  · split at h
    · rename_i h1 h2 h3 _ c1 t
      split at h
      · rename_i hc
        simp only [Option.some.injEq, Prod.mk.injEq] at h
        obtain ⟨rfl, rfl⟩ := h
        have he : encode ((b0.toNat - 192) * 64 + (c1.toNat - 128)) = [b0, c1] := by
          unfold encode
          rw [if_neg (by omega), if_pos (by omega), ← eq_ofNat b0 _ (by omega), ← eq_ofNat c1 _ (by omega)]
        refine ⟨by unfold IsScalar; omega, by rw [he]; rfl, t, by rw [he]; rfl⟩
      · cases h
    · cases h
  split at h
  · split at h
    · rename_i h1 h2 h3 h4 _ c1 c2 t
      split at h
      · rename_i hc
        simp only [Option.some.injEq, Prod.mk.injEq] at h
        obtain ⟨rfl, rfl⟩ := h
        have he : encode ((b0.toNat - 224) * 4096 + (c1.toNat - 128) * 64 + (c2.toNat - 128)) = [b0, c1, c2] := by
          unfold encode
          rw [if_neg (by omega), if_neg (by omega), if_pos (by omega), ← eq_ofNat b0 _ (by omega), ← eq_ofNat c1 _ (by omega),
            ← eq_ofNat c2 _ (by omega)]
        refine ⟨by unfold IsScalar; omega, by rw [he]; rfl, t, by rw [he]; rfl⟩
      · cases h
    · cases h
  · split at h
    · rename_i h1 h2 h3 h4 _ c1 c2 c3 t
      split at h
      · rename_i hc
        simp only [Option.some.injEq, Prod.mk.injEq] at h
        obtain ⟨rfl, rfl⟩ := h
        have he : encode ((b0.toNat - 240) * 262144 + (c1.toNat - 128) * 4096 + (c2.toNat - 128) * 64 + (c3.toNat - 128)) =
            [b0, c1, c2, c3] := by
          unfold encode
          rw [if_neg (by omega), if_neg (by omega), if_neg (by omega), ← eq_ofNat b0 _ (by omega), ← eq_ofNat c1 _ (by omega),
            ← eq_ofNat c2 _ (by omega), ← eq_ofNat c3 _ (by omega)]
        refine ⟨by unfold IsScalar; omega, by rw [he]; rfl, t, by rw [he]; rfl⟩
      · cases h
    · cases h

theorem dec_none {rest : Bytes} (h : dec rest = none) (cp : Nat) (hc : IsScalar cp) : ¬ encode cp <+: rest := by
  rintro ⟨t, rfl⟩
  rw [dec_encode cp hc] at h
  cases h

theorem encode_length (cp : Nat) : 1 ≤ (encode cp).length ∧ (encode cp).length ≤ 4 := by
  unfold encode
  split
  · simp
  · split
    · simp
    · split <;> simp

theorem dec_pos {rest : Bytes} {cp n : Nat} (h : dec rest = some (cp, n)) : 1 ≤ n := by
  have := (dec_sound h).2.1
  have := (encode_length cp).1
  omega

/-- `get_code_point` on a valid offset. -/
theorem getCodePoint_eq (s : Bytes) (k : Nat) (hk : k < s.length) :
    getCodePoint (some s) k =
      match dec (s.drop k) with
      | some (cp, n) => (.ok (cp : Int), ((k + n : Nat) : Int))
      | none => (.die msgInvalid, (k : Int)) := by
  unfold getCodePoint
  simp only []
  rw [if_neg (by omega), if_neg (by omega)]
  have hsplit : s = s.take k ++ s[k] :: s.drop (k + 1) := by
    rw [← List.drop_eq_getElem_cons hk, List.take_append_drop]
  have hlen : (s.take k).length = k := by simp; omega
  have he := iterate_eq (s.take k) s[k] (s.drop (k + 1)) s.length (by simp; omega)
  rw [← hsplit, hlen, ← List.drop_eq_getElem_cons hk] at he
  rw [show ((k : Int)).toNat = k by omega, he]
  cases hd : dec (s.drop k) with
  | none => simp [ans]
  | some p =>
    obtain ⟨cp, n⟩ := p
    have := dec_pos hd
    show (if (n : Int) > 0 then _ else _) = _
    rw [if_pos (by omega)]
    simp [ans]

theorem nextCp_eq (s : Bytes) (k : Nat) (hk : k < s.length) :
    nextCp s k =
      match dec (s.drop k) with
      | some (cp, n) => .ok ((cp : Int), ((k + n : Nat) : Int))
      | none => .die msgInvalid := by
  unfold nextCp
  rw [getCodePoint_eq s k hk]
  cases hd : dec (s.drop k) with
  | none => rfl
  | some p => rfl

/-- Every string is an encoded sequence of scalar values followed by nothing or by something undecodable. -/
theorem exists_decode (s : Bytes) : ∃ cps rest, (∀ c ∈ cps, IsScalar c) ∧ s = encodeAll cps ++ rest ∧ (rest = [] ∨ Stuck rest) := by
  generalize hn : s.length = n
  induction n using Nat.strongRecOn generalizing s with
  | ind n ih =>
    cases s with
    | nil => exact ⟨[], [], by simp, rfl, .inl rfl⟩
    | cons b t =>
      cases hd : dec (b :: t) with
      | none => exact ⟨[], b :: t, by simp, rfl, .inr ⟨by simp, fun cp hc => dec_none hd cp hc⟩⟩
      | some p =>
        obtain ⟨cp, m⟩ := p
        obtain ⟨hc, hl, u, hu⟩ := dec_sound hd
        have h1 := (encode_length cp).1
        have hlen := congrArg List.length hu
        simp only [List.length_append] at hlen
        obtain ⟨cps, rest, ha, hs, hr⟩ := ih u.length (by omega) u rfl
        refine ⟨cp :: cps, rest, ?_, ?_, hr⟩
        · intro c hcm
          rcases List.mem_cons.mp hcm with rfl | h
          · exact hc
          · exact ha c h
        · rw [hu, hs]
          simp [encodeAll]

/-- The bodies of the loop run on a list of code points; `true` if no `last` was met. -/
def runCps (body : Int → Prog σ Bool) : List Nat → Prog σ Bool
  | [] => pure true
  | cp :: cps => do
    let go ← body cp
    if go then runCps body cps else pure false

/-- What follows the bodies. -/
def afterCps (rest : Bytes) (go : Bool) : Prog σ Unit :=
  if go then (if rest = [] then pure () else Prog.die msgInvalid) else pure ()

theorem cpLoop_eq {s : Bytes} (body : Int → Prog σ Bool) (cps : List Nat) (rest : Bytes) (pre : Bytes) (n : Nat)
    (hc : ∀ c ∈ cps, IsScalar c) (hs : s = pre ++ (encodeAll cps ++ rest)) (hr : rest = [] ∨ Stuck rest)
    (hn : s.length ≤ pre.length + n) (st : σ) :
    cpLoop s body n pre.length st = (do let go ← runCps body cps; afterCps rest go : Prog σ Unit) st := by
  induction cps generalizing pre n st with
  | nil =>
    have hdrop : s.drop pre.length = rest := by rw [hs]; simp [encodeAll]
    by_cases hrest : rest = []
    · subst hrest
      have : ¬ (pre.length : Int) < s.length := by rw [hs]; simp [encodeAll]
      cases n with
      | zero => unfold cpLoop; rw [if_neg this]; rfl
      | succ n => unfold cpLoop; rw [if_neg this]; rfl
    · have hpos := List.length_pos_iff.mpr hrest
      have hlt : pre.length < s.length := by rw [hs]; simp [encodeAll]; exact hpos
      rcases n with _ | n
      · omega
      · unfold cpLoop
        rw [if_pos (by omega)]
        have hd : dec (s.drop pre.length) = none := by
          rw [hdrop]
          cases hd : dec rest with
          | none => rfl
          | some p =>
            obtain ⟨cp, m⟩ := p
            obtain ⟨h1, _, t, h2⟩ := dec_sound hd
            exact absurd ⟨t, h2.symm⟩ ((hr.resolve_left hrest).2 cp h1)
        have := nextCp_eq s pre.length hlt
        rw [hd] at this
        rw [this]
        simp only [Prog.lift_die_bind, runCps, Prog.pure_bind_apply, afterCps, if_true, if_neg hrest]
        rfl
  | cons cp cps ih =>
    have hsc := hc cp (by simp)
    have he := encode_length cp
    have hs' : s = pre ++ (encode cp ++ (encodeAll cps ++ rest)) := by
      rw [hs, encodeAll, List.flatMap_cons, ← encodeAll, List.append_assoc]
    have hlt : pre.length < s.length := by rw [hs']; simp; omega
    rcases n with _ | n
    · omega
    · unfold cpLoop
      rw [if_pos (by omega)]
      have hd : dec (s.drop pre.length) = some (cp, (encode cp).length) := by
        rw [hs', List.drop_left]
        exact dec_encode cp hsc _
      have := nextCp_eq s pre.length hlt
      rw [hd] at this
      rw [this, Prog.lift_ok_bind]
      simp only [runCps]
      rw [Prog.bind_apply, Prog.bind_apply, Prog.bind_apply]
      cases hb : body cp st with
      | mk o st1 =>
        cases o with
        | ok go =>
          cases go with
          | true =>
            simp only [if_true]
            have := ih (pre ++ encode cp) n (fun c h => hc c (by simp [h])) (by rw [hs']; simp [List.append_assoc])
              (by simp; omega) st1
            rw [List.length_append] at this
            rw [this, Prog.bind_apply]
          | false => rfl
        | die m => rfl
        | ub => rfl

theorem isScalar_iff (cp : Nat) : FnStr.isScalar cp = true ↔ IsScalar cp := by
  unfold FnStr.isScalar IsScalar
  split
  · split
    · simp; omega
    · simp; omega
  · simp; omega

theorem convert_eq (cp : Nat) (h : cp < 0x110000) : convert cp = encode cp := by
  unfold convert encode
  rw [if_neg (by omega)]
  simp only [Int.toNat_natCast, Nat.shiftRight_eq_div_pow, and3f]
  split
  · rfl
  · split
    · rfl
    · split
      · rfl
      · rfl

theorem chr_eq (cp : Nat) (h : IsScalar cp) : chr cp = some (encode cp) := by
  unfold chr
  rw [if_pos ((isScalar_iff cp).mpr h), convert_eq cp (by unfold IsScalar at h; omega)]

theorem encodeAll_cons (cp : Nat) (cps : List Nat) : encodeAll (cp :: cps) = encode cp ++ encodeAll cps := by
  simp [encodeAll]

theorem encodeAll_append (a b : List Nat) : encodeAll (a ++ b) = encodeAll a ++ encodeAll b := by
  simp [encodeAll]

/-- The decomposition is unique. -/
theorem decode_unique {cps cps' : List Nat} {rest rest' : Bytes} (hc : ∀ c ∈ cps, IsScalar c) (hc' : ∀ c ∈ cps', IsScalar c)
    (hr : rest = [] ∨ Stuck rest) (hr' : rest' = [] ∨ Stuck rest') (h : encodeAll cps ++ rest = encodeAll cps' ++ rest') :
    cps = cps' ∧ rest = rest' := by
  induction cps generalizing cps' with
  | nil =>
    cases cps' with
    | nil => exact ⟨rfl, by simpa [encodeAll] using h⟩
    | cons c cps' =>
      rw [encodeAll_cons, List.append_assoc] at h
      have he := (encode_length c).1
      have hrest : rest = encode c ++ (encodeAll cps' ++ rest') := by simpa [encodeAll] using h
      rcases hr with rfl | hr
      · have := congrArg List.length hrest
        simp at this
        omega
      · exact absurd ⟨_, hrest.symm⟩ (hr.2 c (hc' c (by simp)))
  | cons c cps ih =>
    cases cps' with
    | nil =>
      rw [encodeAll_cons, List.append_assoc] at h
      have he := (encode_length c).1
      have hrest : rest' = encode c ++ (encodeAll cps ++ rest) := by simpa [encodeAll] using h.symm
      rcases hr' with rfl | hr'
      · have := congrArg List.length hrest
        simp at this
        omega
      · exact absurd ⟨_, hrest.symm⟩ (hr'.2 c (hc c (by simp)))
    | cons c' cps' =>
      rw [encodeAll_cons, encodeAll_cons, List.append_assoc, List.append_assoc] at h
      have h1 := dec_encode c (hc c (by simp)) (encodeAll cps ++ rest)
      have h2 := dec_encode c' (hc' c' (by simp)) (encodeAll cps' ++ rest')
      rw [h, h2] at h1
      simp only [Option.some.injEq, Prod.mk.injEq] at h1
      obtain ⟨rfl, _⟩ := h1
      have := List.append_cancel_left h
      obtain ⟨rfl, hr⟩ := ih (fun c h => hc c (by simp [h])) (fun c h => hc' c (by simp [h])) this
      exact ⟨rfl, hr⟩

theorem encodeAll_length_ge (cps : List Nat) : cps.length ≤ (encodeAll cps).length := by
  induction cps with
  | nil => simp [encodeAll]
  | cons c cps ih =>
    rw [encodeAll_cons, List.length_append, List.length_cons]
    have := (encode_length c).1
    omega

end Utf8
end SPVM
