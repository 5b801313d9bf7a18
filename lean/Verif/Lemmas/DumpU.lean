import Verif.Model.DumpU
import Verif.Lemmas.Hash
import Verif.Props.Format
import Verif.Props.TypeCache

set_option linter.unusedSimpArgs false
set_option linter.unusedVariables false

namespace SPVM.DumpU
open VM (Bytes)
open Spec.DumpU (Ty lines text)
open Spec.Format (Arg Piece)

theorem cat_ok {limit : Nat} (hlim : limit ≤ 2147483646) {a b : Bytes} (h : a.length + b.length ≤ limit) :
    cat limit (some a) (some b) = .ok (some (a ++ b)) := by
  unfold cat Str.concat
  simp only []
  rw [add32_ok (by unfold I32; omega), Out.ok_bind, if_pos (by omega)]

theorem and_mask (v : Int) (k : Nat) (hk : k ≤ 31) : and32 v (2 ^ k - 1) = v % 2 ^ k := by
  unfold and32
  have hp : (2 : Nat) ^ k ≤ 2 ^ 31 := Nat.pow_le_pow_right (by omega) hk
  have hpos : 0 < (2 : Nat) ^ k := Nat.pow_pos (by omega)
  have h1 : (BitVec.ofInt 32 (2 ^ k - 1)).toNat = 2 ^ k - 1 := by
    rw [BitVec.toNat_ofInt]
    have : ((2 : Int) ^ k - 1) = ((2 ^ k - 1 : Nat) : Int) := by
      rw [Int.ofNat_sub hpos]; simp
    rw [this]
    omega
  have h2 : (BitVec.ofInt 32 v &&& BitVec.ofInt 32 (2 ^ k - 1)).toNat = (BitVec.ofInt 32 v).toNat % 2 ^ k := by
    rw [BitVec.toNat_and, h1, Nat.and_two_pow_sub_one_eq_mod]
  have hlt : (BitVec.ofInt 32 v).toNat % 2 ^ k < 2 ^ 31 := Nat.lt_of_lt_of_le (Nat.mod_lt _ hpos) hp
  rw [BitVec.toInt_eq_toNat_of_lt (by rw [h2]; omega), h2, BitVec.toNat_ofInt]
  have h3 : ((2 : Nat) ^ k) ∣ 2 ^ 32 := Nat.pow_dvd_pow 2 (by omega)
  have h4 : (((2 : Nat) ^ k : Nat) : Int) ∣ ((2 ^ 32 : Nat) : Int) := Int.ofNat_dvd.mpr h3
  rw [Int.natCast_emod, Int.toNat_of_nonneg (Int.emod_nonneg _ (by simp)), Int.emod_emod_of_dvd _ h4]
  simp

/-- What `sprintf` makes of an element. -/
theorem element {D : Type} (E : Format.Env D) {limit : Nat} (hlim : limit ≤ 2147483646) (h4 : 4 ≤ limit) (t : Ty) (v : Int) (hv : t.Holds v)
    (hm : 2 * (Spec.digits (t.unsigned v)).length ≤ limit) :
    Format.sprintf E limit (some (format t)) (some [argument t v]) = .ok (Spec.digits (t.unsigned v)) := by
  have key : ∀ (c : Spec.Format.Conv) (a : Arg D), c = .u ∨ c = .lu → a.InRange →
      Spec.Format.value (Format.envText E.textF) (Format.envText E.textG) none c a = some (Spec.digits (t.unsigned v)) →
      Format.sprintf E limit (some (Spec.Format.text [.field [] 0 none c])) (some [a]) = .ok (Spec.digits (t.unsigned v)) := by
    intro c a hc ha hval
    have e : Spec.Format.sprintf (Format.envText E.textF) (Format.envText E.textG) [.field [] 0 none c] [a] =
        (Spec.digits (t.unsigned v), .returns) := by
      have ho : Spec.Format.overruns none (Spec.digits (t.unsigned v)) c = false := by rcases hc with rfl | rfl <;> rfl
      have hw : Spec.Format.effectiveWidth 0 none c a = 0 := by rcases hc with rfl | rfl <;> rfl
      simp [Spec.Format.sprintf, hval, ho, hw, Format.digits_ne_nil, Spec.Format.pad]
    have := (Format.c44_sprintf E hlim [.field [] 0 none c] [a] (by simp [Spec.Format.Piece.Small])
      (by rcases hc with rfl | rfl <;> decide) (by simpa using ha) (by rw [e]; exact hm) h4).1 (by rw [e])
    rw [this, e]
  cases t with
  | byte =>
    simp only [Ty.Holds, Ty.bits] at hv
    have e1 := and_mask v 8 (by omega)
    refine key .u _ (.inl rfl) ?_ ?_
    · simp only [argument, Spec.Format.Arg.InRange]
      rw [show (255 : Int) = 2 ^ 8 - 1 by decide, e1]; omega
    · simp only [argument, Spec.Format.value, Spec.Format.unsigned, Ty.unsigned, Ty.bits]
      rw [show (255 : Int) = 2 ^ 8 - 1 by decide, e1]
      congr 2
      split <;> omega
  | short =>
    simp only [Ty.Holds, Ty.bits] at hv
    have e1 := and_mask v 16 (by omega)
    refine key .u _ (.inl rfl) ?_ ?_
    · simp only [argument, Spec.Format.Arg.InRange]
      rw [show (65535 : Int) = 2 ^ 16 - 1 by decide, e1]; omega
    · simp only [argument, Spec.Format.value, Spec.Format.unsigned, Ty.unsigned, Ty.bits]
      rw [show (65535 : Int) = 2 ^ 16 - 1 by decide, e1]
      congr 2
      split <;> omega
  | int =>
    simp only [Ty.Holds, Ty.bits] at hv
    refine key .u _ (.inl rfl) ?_ ?_
    · simp only [argument, Spec.Format.Arg.InRange]; omega
    · simp only [argument, Spec.Format.value, Spec.Format.unsigned, Ty.unsigned, Ty.bits]
      congr 2
      split <;> omega
  | long =>
    simp only [Ty.Holds, Ty.bits] at hv
    refine key .lu _ (.inr rfl) ?_ ?_
    · simp only [argument, Spec.Format.Arg.InRange]; omega
    · simp only [argument, Spec.Format.value, Spec.Format.unsigned, Ty.unsigned, Ty.bits]
      congr 2
      split <;> omega

/-- What `sprintf` makes of the address. -/
theorem pointer {D : Type} (E : Format.Env D) {limit : Nat} (hlim : limit ≤ 2147483646) (h4 : 4 ≤ limit) (ha : E.addr .other < 2 ^ 64)
    (hm : 2 * ((Spec.Format.hex Spec.Format.lowerHex (E.addr .other)).length + 2) ≤ limit) :
    Format.sprintf E limit (some [37, 112]) (some [.other]) =
      .ok (48 :: 120 :: Spec.Format.hex Spec.Format.lowerHex (E.addr .other)) := by
  obtain ⟨b, k, eb, hr⟩ := StrBuf.new_ok hlim none (-1) (by simp; omega)
  have hn : Format.nativeP (E.addr .other) = .ok (48 :: 120 :: Spec.Format.hex Spec.Format.lowerHex (E.addr .other)) := by
    unfold Format.nativeP
    have := Format.hex_length Spec.Format.lowerHex (E.addr .other) 16 (by omega) (by omega)
    rw [Format.hexDigits_eq, Format.native_ok (by simp; omega)]
  have hp : Spec.Format.pad [] true 0 (48 :: 120 :: Spec.Format.hex Spec.Format.lowerHex (E.addr .other)) =
      48 :: 120 :: Spec.Format.hex Spec.Format.lowerHex (E.addr .other) := by simp [Spec.Format.pad]
  obtain ⟨b1, r1, e1, hr1⟩ := Format.pushes_signed hlim (flags := []) (signed := true) (w := 0) (xs := [])
    (t := 48 :: 120 :: Spec.Format.hex Spec.Format.lowerHex (E.addr .other)) (by simp) (by omega)
    (by rw [hp]; simpa using hm) b _ (by simpa using hr)
  rw [hp] at hr1
  have hb : Format.doSpec E limit [37, 112] (some [.other]) 0 0 0 b = (.ok 2, b1) := by
    unfold Format.doSpec Format.flush
    rw [if_neg (by omega), Prog.pure_bind_apply, show Format.nextArg (some [(Arg.other : Arg D)]) 0 = .ok .other from rfl, Prog.lift_ok_bind,
      show Format.readSpec [37, 112] 0 = .ok (2, {}, 0, -1, false, .p) from rfl, Prog.lift_ok_bind]
    simp only [Format.emit]
    rw [hn]
    refine (Prog.bind_ok (a := ()) (s' := b1) ?_).trans rfl
    rw [Prog.lift_ok_bind]
    exact e1
  unfold Format.sprintf
  rw [eb]
  simp only [Option.getD_some]
  have : Format.mainLoop E limit [37, 112] (some [.other]) (([37, 112] : Bytes).length + 1) 0 0 0 b = (.ok (), b1) := by
    show ((Format.doSpec E limit [37, 112] (some [.other]) 0 0 0) >>= _) b = _
    rw [Prog.bind_ok hb]
    rfl
  rw [Prog.bind_ok this, StrBuf.toString_ok hlim hr1]
  simp

theorem lines_cons (t : Ty) (v : Int) (vs : List Int) : lines t (v :: vs) =
    [32, 32] ++ Spec.digits (t.unsigned v) ++ (if vs = [] then [10] else [44, 10]) ++ lines t vs := by
  cases vs <;> simp [lines]

theorem loop_ok {D : Type} (E : Format.Env D) {limit : Nat} (hlim : limit ≤ 2147483646) (h4 : 4 ≤ limit) (t : Ty) (array : List Int)
    (hh : ∀ v ∈ array, t.Holds v) :
    ∀ (vs pre : List Int) (dump : Bytes), array = pre ++ vs → array.length ≤ 2147483647 → 2 * (dump.length + (lines t vs).length) ≤ limit →
      loop E limit t array vs.length pre.length (some dump) = .ok (some (dump ++ lines t vs)) := by
  intro vs
  induction vs with
  | nil => intro pre dump _ _ _; simp [loop, lines]
  | cons v vs ih =>
    intro pre dump ha hl hm
    rw [lines_cons] at hm ⊢
    simp only [List.length_append, List.length_cons, List.length_nil] at hm
    have hlen : array.length = pre.length + (vs.length + 1) := by rw [ha]; simp
    have hv := hh v (by rw [ha]; simp)
    rw [List.length_cons]
    unfold loop
    rw [show aGet array (pre.length : Int) = .ok v by rw [ha]; exact Hash.aGet_mid rfl, Out.ok_bind,
      element E hlim h4 t v hv (by omega), Out.ok_bind, cat_ok hlim (by simp; omega), Out.ok_bind,
      cat_ok hlim (by simp; omega), Out.ok_bind, sub32_ok (by unfold I32; omega), Out.ok_bind]
    have hnext := ih (pre ++ [v]) (dump ++ ([32, 32] ++ Spec.digits (t.unsigned v) ++ (if vs = [] then [10] else [44, 10])))
      (by rw [ha]; simp) hl (by simp only [List.length_append, List.length_cons, List.length_nil]; omega)
    rw [List.length_append, List.length_cons, List.length_nil] at hnext
    by_cases hvs : vs = []
    · subst hvs
      simp only [↓reduceIte, List.length_nil, List.length_cons] at hm hlen hnext
      rw [if_neg (by simp only [ne_eq, Classical.not_not]; omega), cat_ok hlim (by simp; omega), Out.ok_bind]
      simpa using hnext
    · have : vs.length ≠ 0 := by simpa using hvs
      rw [if_neg hvs] at hm hnext ⊢
      simp only [List.length_cons, List.length_nil] at hm
      rw [if_pos (by omega), cat_ok hlim (by simp; omega), Out.ok_bind]
      simpa using hnext

end SPVM.DumpU
