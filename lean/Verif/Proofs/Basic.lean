import Verif.Model.Encoder
import Mathlib.Tactic.NormNum
import Mathlib.Tactic.Ring
import Mathlib.Tactic.Linarith
/-! Elementary lemmas about the result monad and the checked operations. -/
namespace Jpeg

@[simp] theorem ok_bind {α β : Type} (a : α) (f : α → R β) : (Except.ok a >>= f) = f a := (rfl)
@[simp] theorem error_bind {α β : Type} (e : Fail) (f : α → R β) : ((Except.error e : R α) >>= f) = .error e := (rfl)
@[simp] theorem ok_bind' {α β : Type} (a : α) (f : α → R β) : (Except.ok a : R α).bind f = f a := (rfl)
@[simp] theorem error_bind' {α β : Type} (e : Fail) (f : α → R β) : (Except.error e : R α).bind f = .error e := (rfl)

theorem ckI_ok {pf : Platform} {bits : Nat} {v : Int} (h1 : -(2 : Int) ^ (bits - 1) ≤ v)
    (h2 : v < (2 : Int) ^ (bits - 1)) : ckI pf bits v = .ok v := by
  simp [ckI, h1, h2]

theorem ckU_ok {pf : Platform} {bits : Nat} {v : Int} (h1 : 0 ≤ v) (h2 : v < (2 : Int) ^ bits) :
    ckU pf bits v = .ok v.toNat := by
  simp [ckU, h1, h2]

theorem ckI32_ok {pf : Platform} {v : Int} (h1 : -2147483648 ≤ v) (h2 : v < 2147483648) :
    ckI pf 32 v = .ok v := ckI_ok (by simpa using h1) (by simpa using h2)

theorem ckI16_ok {pf : Platform} {v : Int} (h1 : -32768 ≤ v) (h2 : v < 32768) :
    ckI pf 16 v = .ok v := ckI_ok (by simpa using h1) (by simpa using h2)

theorem ckI8_ok {pf : Platform} {v : Int} (h1 : -128 ≤ v) (h2 : v < 128) :
    ckI pf 8 v = .ok v := ckI_ok (by simpa using h1) (by simpa using h2)

theorem ckU8_ok {pf : Platform} {v : Int} (h1 : 0 ≤ v) (h2 : v < 256) :
    ckU pf 8 v = .ok v.toNat := ckU_ok h1 (by simpa using h2)

theorem ckU16_ok {pf : Platform} {v : Int} (h1 : 0 ≤ v) (h2 : v < 65536) :
    ckU pf 16 v = .ok v.toNat := ckU_ok h1 (by simpa using h2)

theorem ckU32_ok {pf : Platform} {v : Int} (h1 : 0 ≤ v) (h2 : v < 4294967296) :
    ckU pf 32 v = .ok v.toNat := ckU_ok h1 (by simpa using h2)

theorem Platform.Valid.wordBits_eq {pf : Platform} (h : pf.Valid) : pf.wordBits = 32 ∨ pf.wordBits = 64 := by
  rcases h with h | h <;> simp [Platform.wordBits, h]

theorem ckUsize_ok {pf : Platform} (hpf : pf.Valid) {v : Int} (h1 : 0 ≤ v) (h2 : v < 4294967296) :
    ckUsize pf v = .ok v.toNat := by
  rcases hpf.wordBits_eq with h | h
  · exact ckU_ok h1 (by rw [h]; simpa using h2)
  · exact ckU_ok h1 (by rw [h]; have : (2:Int)^64 = 18446744073709551616 := by norm_num
                        omega)

theorem idx_ok {α : Type} {l : List α} {i : Nat} (h : i < l.length) : idx l i = .ok l[i] := by
  simp [idx, h]

theorem idx_eq_getD {α : Type} {l : List α} {i : Nat} (d : α) (h : i < l.length) : idx l i = .ok (l.getD i d) := by
  simp [idx, h, List.getD]

theorem setIdx_ok {α : Type} {l : List α} {i : Nat} {a : α} (h : i < l.length) :
    setIdx l i a = .ok (l.set i a) := by
  simp [setIdx, h]

theorem mapR_ok {α β : Type} {l : List α} {f : α → R β} {g : α → β} (h : ∀ x ∈ l, f x = .ok (g x)) :
    mapR l f = .ok (l.map g) := by
  induction l with
  | nil => rfl
  | cons x xs ih =>
    simp only [mapR, h x (by simp), ok_bind', ih (fun y hy => h y (by simp [hy])), List.map_cons]

theorem forFoldR_ok {α β : Type} {l : List α} {f : β → α → R β} {g : β → α → β} {s : β}
    (h : ∀ s, ∀ x ∈ l, f s x = .ok (g s x)) : forFoldR l s f = .ok (l.foldl g s) := by
  induction l generalizing s with
  | nil => rfl
  | cons x xs ih =>
    simp only [forFoldR, h s x (by simp), ok_bind', ih (fun s y hy => h s y (by simp [hy])), List.foldl_cons]

@[simp] theorem debugAssert_true {pf : Platform} : debugAssert pf true = .ok () := by simp [debugAssert]
@[simp] theorem assert_true : assert' true = .ok () := rfl

theorem u8_toNat {n : Nat} (h : n < 256) : (u8 n).toNat = n := by
  simp [u8, Nat.mod_eq_of_lt h]

end Jpeg
