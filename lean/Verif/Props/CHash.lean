import Verif.Lemmas.CHash
/-!
# C38: the compiler's symbol table is a map
-/
set_option linter.unusedSimpArgs false
namespace SPVM
namespace CHash
open VM (Bytes)
open Spec.CHash (Op)
variable {ν : Type}

/-- The keys used by a history. -/
def keys (ops : List (Op Bytes ν)) : List Bytes := ops.map fun
  | .set k _ => k
  | .get k => k

theorem run_ok {hf : Bytes → Out Int} {P : Bytes → Prop} {H : Bytes → Nat} (hP : ∀ k, P k → Hashes hf H k) (null : ν)
    (ops : List (Op Bytes ν)) (hk : ∀ k ∈ keys ops, P k) (h : CHash ν) (g : Good P H h.table)
    (hlen : h.keysLength + ops.length ≤ 805306368) :
    run hf null h ops = .ok (Spec.CHash.run null (toMap H h.table) ops) := by
  induction ops generalizing h with
  | nil => rfl
  | cons op ops ih =>
    simp only [List.length_cons] at hlen
    cases op with
    | set k v =>
      obtain ⟨h', e, g', m, l⟩ := set_ok hP g (by omega) k (hk k (by simp [keys])) v
      simp only [run, e, Out.ok_bind, Spec.CHash.run]
      rw [ih (fun k hk' => hk k (by simp [keys] at hk' ⊢; exact .inr hk')) h' g' (by omega), m]
      rfl
    | get k =>
      simp only [run, get_ok hP g k (hk k (by simp [keys])) null, Out.ok_bind, Spec.CHash.run]
      rw [ih (fun k hk' => hk k (by simp [keys] at hk' ⊢; exact .inr hk')) h g (by omega)]
      rfl

/-- On two's complement machines the hash value is a non-negative `int`. -/
theorem hashWrap_ok (k : Bytes) : ∃ n : Nat, hashWrap k = .ok (n : Int) := by
  unfold hashWrap
  generalize k.foldl roundWrap 5381#32 = h
  by_cases hn : h.toInt < 0
  · simp only [hn, if_true]
    refine ⟨(~~~h).toInt.toNat, ?_⟩
    congr 1
    rw [BitVec.toInt_not] 
    have h1 : -2147483648 ≤ h.toInt := by have := BitVec.le_toInt h; simpa using this
    rw [Int.bmod_def]
    have := BitVec.toInt_eq_toNat_bmod h
    have := h.isLt
    simp only [BitVec.toInt] at *
    omega
  · simp only [hn, if_false]
    exact ⟨h.toInt.toNat, by congr 1; omega⟩

/-- **C38** with wrapping arithmetic in the hash function: every history of at most 805306368 calls on a new table, with any
keys whatsoever (any bytes, any lengths, colliding or not), is a history of a map. -/
theorem c38_history_wrap (null : ν) (capacity : Int) (hc : 0 ≤ capacity) (ops : List (Op Bytes ν))
    (hlen : ops.length ≤ 805306368) :
    (do let h ← new capacity; run hashWrap null h ops) = .ok (Spec.CHash.run null Spec.Map.empty ops) := by
  have hP : ∀ k, True → Hashes hashWrap (fun k => (hashWrap_ok k).choose) k := fun k _ => (hashWrap_ok k).choose_spec
  obtain ⟨h, e, g, m, l⟩ := new_ok (ν := ν) (P := fun _ => True) (H := fun k => (hashWrap_ok k).choose) hc
  rw [e]
  simp only [Out.ok_bind]
  rw [run_ok hP null ops (fun _ _ => trivial) h g (by omega), m]

/-- **C38** by the C standard, for keys the hash function is defined on. -/
theorem c38_history_partial (null : ν) (capacity : Int) (hc : 0 ≤ capacity) (ops : List (Op Bytes ν))
    (hlen : ops.length ≤ 805306368) (hdef : ∀ k ∈ keys ops, hashStrict k ≠ .ub) :
    (do let h ← new capacity; run hashStrict null h ops) = .ok (Spec.CHash.run null Spec.Map.empty ops) := by
  have hex : ∀ k, hashStrict k ≠ .ub → ∃ n : Nat, hashStrict k = .ok (n : Int) := by
    intro k hk
    unfold hashStrict at *
    cases hf : k.foldlM roundStrict 5381 with
    | ok h =>
      simp only [Out.ok_bind]
      exact ⟨(if h < 0 then -h - 1 else h).toNat, by congr 1; split <;> omega⟩
    | die m =>
      exfalso
      have : ∀ (k : Bytes) (h : Int), k.foldlM roundStrict h ≠ .die m := by
        intro k
        induction k with
        | nil => intro h; simp
        | cons c cs ih =>
          intro h
          rw [List.foldlM_cons]
          have hr : ∀ m', roundStrict h c ≠ .die m' := by
            intro m'
            unfold roundStrict VM.leftShift add32 chk32
            repeat' (first | split | simp)
          cases hrr : roundStrict h c with
          | ok h' => exact ih h'
          | die m' => exact absurd hrr (hr m')
          | ub => simp
      exact this k 5381 hf
    | ub => rw [hf] at hk; simp at hk
  have hP : ∀ k, hashStrict k ≠ .ub → Hashes hashStrict (fun k => if h : hashStrict k ≠ .ub then (hex k h).choose else 0) k := by
    intro k hk
    unfold Hashes
    simp only [dif_pos hk]
    exact (hex k hk).choose_spec
  obtain ⟨h, e, g, m, l⟩ := new_ok (ν := ν) (P := fun k => hashStrict k ≠ .ub)
    (H := fun k => if h : hashStrict k ≠ .ub then (hex k h).choose else 0) hc
  rw [e]
  simp only [Out.ok_bind]
  rw [run_ok hP null ops hdef h g (by omega), m]

/-- Some keys are fine. -/
example : hashStrict [97, 98] ≠ .ub := by decide +kernel

/-- **C38** by the C standard fails for ordinary keys: already "Fooo" overflows `int32_t` in the hash function, so that
putting such a symbol into any table is undefined. -/
theorem c38_hash_overflow_violated (h : CHash ν) (v : ν) (hcap : 4 * h.keysLength ≤ 3 * h.table.length) :
    set hashStrict h [70, 111, 111, 111] v = .ub := by
  have e : hashStrict [70, 111, 111, 111] = .ub := by decide +kernel
  unfold set maybeRehash
  rw [if_neg (by omega)]
  simp [tableIndex, e]

/-- Two keys of the same bucket, an overwritten key, an absent key, a `NUL` in a key and the empty key. -/
example : (do let h ← new (ν := Nat) 0
              run hashWrap 0 h [.set [] 1, .set [0] 2, .set [97] 3, .set [0, 0] 4, .set [97] 5, .get [], .get [0], .get [97], .get [0, 0], .get [98]]) =
    .ok [none, none, none, none, none, some 1, some 2, some 5, some 4, some 0] := by decide +kernel

end CHash
end SPVM
