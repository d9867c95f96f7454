import Verif.TimeT.Model
import Verif.Core.Tac
import Mathlib.Logic.Function.Basic

/-! # Properties of time_t (C37) -/
namespace Itlib.TimeT
open Itlib M

/-! ### Specification -/

/-- `q` is the duration `d` in seconds, rounded toward zero: the greatest whole number of seconds not exceeding its
length, with its sign. -/
def Truncates (d : Dur) (q : Int) : Prop :=
  (0 ≤ d.count → 0 ≤ q ∧ q * d.den ≤ d.count * d.num ∧ d.count * d.num < (q + 1) * d.den) ∧
  (d.count ≤ 0 → q ≤ 0 ∧ (q - 1) * d.den < d.count * d.num ∧ d.count * d.num ≤ q * d.den)

/-- whole seconds of a duration -/
def secs (d : Dur) : Int :=
  if 0 ≤ d.count then ((d.count.toNat * d.num / d.den : Nat) : Int) else -(((-d.count).toNat * d.num / d.den : Nat) : Int)

/-- representable -/
def Fits (x : Int) : Prop := -9223372036854775808 ≤ x ∧ x < 9223372036854775808

instance (x : Int) : Decidable (Fits x) := by unfold Fits; infer_instance

/-- a duration whose conversion does not overflow -/
structure Dur.Ok (d : Dur) : Prop where
  num : 0 < d.num
  den : 0 < d.den
  count : Fits (d.count * d.num)

namespace Spec

/-- What a call returns and does, in whole numbers; `none`: a result is not representable. -/
def call (op : Op) (w : Nat → Int) : Option (Reply × (Nat → Int)) :=
  let put (k : Nat) (x : Int) : Option (Reply × (Nat → Int)) := if Fits x then some (.unit, Function.update w k x) else none
  match op with
  | .fromSeconds k s => put k s
  | .copy k j => some (.unit, Function.update w k (w j))
  | .addAssign k d => put k (w k + secs d)
  | .subAssign k d => put k (w k - secs d)
  | .add k j d => put k (w j + secs d)
  | .sub k j d => put k (w j - secs d)
  | .diff a b => if Fits (w a - w b) then some (.num (w a - w b), w) else none
  | .seconds k => some (.num (w k), w)
  | .eq a b => some (.bool (decide (w a = w b)), w)
  | .ne a b => some (.bool (decide (w a ≠ w b)), w)
  | .lt a b => some (.bool (decide (w a - w b < 0)), w)
  | .le a b => some (.bool (decide (w a - w b ≤ 0)), w)
  | .gt a b => some (.bool (decide (0 < w a - w b)), w)
  | .ge a b => some (.bool (decide (0 ≤ w a - w b)), w)

def run : List Op → (Nat → Int) → Option (List Reply × (Nat → Int))
  | [], w => some ([], w)
  | op :: ops, w => do
    let (r, w) ← call op w
    let (rs, w) ← run ops w
    some (r :: rs, w)

/-- durations convert without overflow -/
def DurOk : Op → Prop
  | .addAssign _ d => d.Ok
  | .subAssign _ d => d.Ok
  | .add _ _ d => d.Ok
  | .sub _ _ d => d.Ok
  | _ => True

end Spec

/-! ### Proofs -/

theorem secs_eq_tdiv (d : Dur) : secs d = Int.tdiv (d.count * d.num) d.den := by
  unfold secs
  split
  · rename_i h
    obtain ⟨n, hn⟩ : ∃ n : Nat, d.count = n := ⟨d.count.toNat, by omega⟩
    rw [hn, Int.toNat_natCast, ← Int.natCast_mul, ← Int.ofNat_tdiv]
  · rename_i h
    obtain ⟨n, hn⟩ : ∃ n : Nat, d.count = -(n : Int) := ⟨(-d.count).toNat, by omega⟩
    rw [hn, Int.neg_neg, Int.toNat_natCast, Int.neg_mul, Int.neg_tdiv, ← Int.natCast_mul, ← Int.ofNat_tdiv]

/-- C37. `secs`, the seconds of a duration that the other theorems speak of, is the duration rounded toward zero. -/
theorem C37_truncates (d : Dur) (h : 0 < d.den) : Truncates d (secs d) := by
  have key : ∀ n : Nat, n * d.num / d.den * d.den ≤ n * d.num ∧ n * d.num < (n * d.num / d.den + 1) * d.den := by
    intro n
    have h1 := Nat.div_add_mod (n * d.num) d.den
    have h2 := Nat.mod_lt (n * d.num) h
    rw [Nat.mul_comm] at h1
    rw [Nat.add_mul, Nat.one_mul]
    omega
  constructor
  · intro hc
    obtain ⟨n, hn⟩ : ∃ n : Nat, d.count = n := ⟨d.count.toNat, by omega⟩
    have := key n
    simp only [secs, hn, Int.natCast_nonneg, if_true, Int.toNat_natCast]
    refine ⟨trivial, ?_, ?_⟩
    · exact_mod_cast this.1
    · exact_mod_cast this.2
  · intro hc
    obtain ⟨n, hn⟩ : ∃ n : Nat, d.count = -(n : Int) := ⟨(-d.count).toNat, by omega⟩
    have hk := key n
    have hs : secs d = -((n * d.num / d.den : Nat) : Int) := by
      rw [secs_eq_tdiv, hn, Int.neg_mul, Int.neg_tdiv, ← Int.natCast_mul, ← Int.ofNat_tdiv]
    rw [hs, hn]
    have h1 : ((n * d.num / d.den * d.den : Nat) : Int) ≤ ((n * d.num : Nat) : Int) := by exact_mod_cast hk.1
    have h2 : ((n * d.num : Nat) : Int) < (((n * d.num / d.den + 1) * d.den : Nat) : Int) := by exact_mod_cast hk.2
    generalize n * d.num / d.den = q at *
    refine ⟨by omega, ?_, ?_⟩
    · have : (-(q : Int) - 1) * (d.den : Int) = -(((q + 1) * d.den : Nat) : Int) := by
        push_cast; rw [← Int.neg_mul]; congr 1; omega
      rw [this, Int.neg_mul, ← Int.natCast_mul]; omega
    · rw [Int.neg_mul, Int.neg_mul, ← Int.natCast_mul, ← Int.natCast_mul]; omega

theorem chk_ok {σ : Type} {x : Int} (h : Fits x) (w : σ) : chk x w = .ok x w := by
  unfold Fits at h; simp [chk, h]

theorem dc_ok {σ : Type} {d : Dur} (h : d.Ok) (w : σ) : dc d w = .ok (secs d) w := by
  rw [secs_eq_tdiv]
  unfold dc
  split
  · rename_i h1
    simp [h1]
  · split
    · rename_i h1
      rw [chk_ok h.count]; simp [h1]
    · split
      · rename_i h1
        simp [h1]
      · simp only [bind_apply, chk_ok h.count, pure_apply]

/-- C37. Every history of times and durations computes with whole seconds: a duration counts as its seconds rounded toward
zero, differences are exact, and the comparisons agree with the differences. -/
theorem C37_history (ops : List Op) : ∀ (w : Nat → Int) (rs : List Reply) (y : Nat → Int), (∀ op ∈ ops, Spec.DurOk op) →
    Spec.run ops w = some (rs, y) → run ops w = some (rs, y) := by
  induction ops with
  | nil => intro w rs y _ h; exact h
  | cons op ops ih =>
    intro w rs y hok h
    have hop := hok op (by simp)
    have hops : ∀ op ∈ ops, Spec.DurOk op := fun o ho => hok o (by simp [ho])
    simp only [Spec.run, Option.bind_eq_bind, Option.bind_eq_some_iff, Prod.exists, Option.some.injEq, Prod.mk.injEq] at h
    obtain ⟨r, w1, hc, rs1, y1, hr, rfl, rfl⟩ := h
    have key : exec op w = .ok r w1 := by
      cases op with
      | fromSeconds k s =>
        simp only [Spec.call] at hc; split at hc <;> simp_all [exec, setVar]
      | copy k j => simp only [Spec.call, Option.some.injEq, Prod.mk.injEq] at hc; simp [exec, setVar, hc]
      | addAssign k d =>
        simp only [Spec.call] at hc
        split at hc
        · rename_i hf
          simp only [Option.some.injEq, Prod.mk.injEq] at hc
          simp only [exec, setVar, bind_apply, get_apply, dc_ok hop, chk_ok hf, modify_apply, pure_apply, hc]
        · simp at hc
      | subAssign k d =>
        simp only [Spec.call] at hc
        split at hc
        · rename_i hf
          simp only [Option.some.injEq, Prod.mk.injEq] at hc
          simp only [exec, setVar, bind_apply, get_apply, dc_ok hop, chk_ok hf, modify_apply, pure_apply, hc]
        · simp at hc
      | add k j d =>
        simp only [Spec.call] at hc
        split at hc
        · rename_i hf
          simp only [Option.some.injEq, Prod.mk.injEq] at hc
          simp only [exec, setVar, bind_apply, get_apply, dc_ok hop, chk_ok hf, modify_apply, pure_apply, hc]
        · simp at hc
      | sub k j d =>
        simp only [Spec.call] at hc
        split at hc
        · rename_i hf
          simp only [Option.some.injEq, Prod.mk.injEq] at hc
          simp only [exec, setVar, bind_apply, get_apply, dc_ok hop, chk_ok hf, modify_apply, pure_apply, hc]
        · simp at hc
      | diff a b =>
        simp only [Spec.call] at hc
        split at hc
        · rename_i hf
          simp only [Option.some.injEq, Prod.mk.injEq] at hc
          obtain ⟨rfl, rfl⟩ := hc
          simp only [exec, bind_apply, get_apply, chk_ok hf, pure_apply]
        · simp at hc
      | seconds k =>
        simp only [Spec.call, Option.some.injEq, Prod.mk.injEq] at hc
        obtain ⟨rfl, rfl⟩ := hc
        simp [exec]
      | eq a b =>
        simp only [Spec.call, Option.some.injEq, Prod.mk.injEq] at hc
        obtain ⟨rfl, rfl⟩ := hc
        simp [exec, beq_eq_decide]
      | ne a b =>
        simp only [Spec.call, Option.some.injEq, Prod.mk.injEq] at hc
        obtain ⟨rfl, rfl⟩ := hc
        simp [exec, bne, beq_eq_decide]
      | lt a b =>
        simp only [Spec.call, Option.some.injEq, Prod.mk.injEq] at hc
        obtain ⟨rfl, rfl⟩ := hc
        simp only [exec, bind_apply, get_apply, pure_apply, Res.ok.injEq, Reply.bool.injEq, decide_eq_decide, and_true]; omega
      | le a b =>
        simp only [Spec.call, Option.some.injEq, Prod.mk.injEq] at hc
        obtain ⟨rfl, rfl⟩ := hc
        simp only [exec, bind_apply, get_apply, pure_apply, Res.ok.injEq, Reply.bool.injEq, decide_eq_decide, and_true]; omega
      | gt a b =>
        simp only [Spec.call, Option.some.injEq, Prod.mk.injEq] at hc
        obtain ⟨rfl, rfl⟩ := hc
        simp only [exec, bind_apply, get_apply, pure_apply, Res.ok.injEq, Reply.bool.injEq, decide_eq_decide, and_true]; omega
      | ge a b =>
        simp only [Spec.call, Option.some.injEq, Prod.mk.injEq] at hc
        obtain ⟨rfl, rfl⟩ := hc
        simp only [exec, bind_apply, get_apply, pure_apply, Res.ok.injEq, Reply.bool.injEq, decide_eq_decide, and_true]; omega
    simp only [run, key, ih w1 rs1 y1 hops hr, Option.map_some]

/-- C37. `(t + d) - t` is `d` rounded toward zero to seconds, and `(t + d) - d` is `t`, for every time and duration without
overflow. -/
theorem C37_sum_difference (w : Vars) (d : Dur) (hd : d.Ok) (h : Fits (w 0)) (h' : Fits (w 0 + secs d)) (hs : Fits (secs d)) :
    ∃ w', run [.add 1 0 d, .diff 1 0, .subAssign 1 d, .eq 1 0] w = some ([.unit, .num (secs d), .unit, .bool true], w') := by
  have e : w 0 + secs d - secs d = w 0 := by omega
  have e2 : w 0 + secs d - w 0 = secs d := by omega
  have hw : Spec.run [.add 1 0 d, .diff 1 0, .subAssign 1 d, .eq 1 0] w =
      some ([.unit, .num (secs d), .unit, .bool true], Function.update (Function.update w 1 (w 0 + secs d)) 1 (w 0)) := by
    simp [Spec.run, Spec.call, h', h, hs, e, e2]
  exact ⟨_, C37_history _ w _ _ (by intro op ho; simp at ho; rcases ho with rfl | rfl | rfl | rfl <;> first | exact hd | trivial) hw⟩

/-! ### strftime -/

theorem call_fits {f : Fmt} {buf : List Nat} (h : f.text.length < buf.length) :
    f.call buf = (f.text.length, f.text ++ 0 :: buf.drop (f.text.length + 1)) := if_pos h

theorem call_length (f : Fmt) (buf : List Nat) : (f.call buf).2.length = buf.length := by
  unfold Fmt.call
  split
  · simp; omega
  · simp; omega

theorem resize_length {maxSize n : Nat} {s : List Nat} (h : n ≤ maxSize) :
    ∃ t, resize maxSize n s () = .ok t () ∧ t.length = n ∧ (n ≤ s.length → t = s.take n) := by
  refine ⟨_, by rw [resize, if_neg (by omega)]; rfl, by simp; omega, ?_⟩
  intro h
  simp [Nat.sub_eq_zero_of_le h]

/-- C37. `strftime` returns exactly the formatted text, if it is not empty and a string of twice its size is possible; the
loop ends. Missing: the empty text, see the defect theorem. -/
theorem C37_strftime_partial (maxSize : Nat) (f : Fmt) (hne : f.text ≠ []) (h128 : 128 ≤ maxSize) (hm : 2 * f.text.length ≤ maxSize)
    (fuel : Nat) (hf : f.text.length ≤ fuel) : strftime maxSize f fuel () = .ok f.text () := by
  have hpos : 0 < f.text.length := List.length_pos_iff.mpr hne
  have key : ∀ fuel (ret : List Nat), 0 < ret.length → f.text.length + 1 - ret.length ≤ fuel →
      strftimeLoop maxSize f fuel ret () = .ok f.text () := by
    intro fuel
    induction fuel with
    | zero =>
      intro ret h0 h1
      have hlt : f.text.length < ret.length := by omega
      simp only [strftimeLoop, call_fits hlt]
      rw [if_neg (by omega)]
      obtain ⟨t, ht, -, ht'⟩ := resize_length (s := f.text ++ 0 :: ret.drop (f.text.length + 1)) (show f.text.length ≤ maxSize by omega)
      rw [ht, ht' (by simp)]
      simp
    | succ fuel ih =>
      intro ret h0 h1
      unfold strftimeLoop
      rcases Nat.lt_or_ge f.text.length ret.length with hlt | hge
      · simp only [call_fits hlt]
        rw [if_neg (by omega)]
        obtain ⟨t, ht, -, ht'⟩ := resize_length (s := f.text ++ 0 :: ret.drop (f.text.length + 1)) (show f.text.length ≤ maxSize by omega)
        rw [ht, ht' (by simp)]
        simp
      · have hc : (f.call ret).1 = 0 := by unfold Fmt.call; rw [if_neg (by omega)]
        simp only [hc, if_true, bind_apply, call_length]
        obtain ⟨t, ht, hl, -⟩ := resize_length (s := (f.call ret).2) (show 2 * ret.length ≤ maxSize by omega)
        rw [ht]
        exact ih t (by omega) (by omega)
  obtain ⟨t, ht, hl, -⟩ := resize_length (s := []) h128
  simp only [strftime, bind_apply, ht]
  exact key fuel t (by omega) (by omega)

/-- C37, defect. For a format whose result is empty (such as `""`, or `"%p"` in many locales), `strftime` never returns a
string: it doubles its buffer until memory or the maximal size of a string is exhausted. -/
theorem C37_strftime_empty_defect (maxSize : Nat) (f : Fmt) (he : f.text = []) :
    (∀ fuel s, strftime maxSize f fuel () ≠ .ok s ()) ∧ ∀ fuel, maxSize ≤ fuel → strftime maxSize f fuel () = .throw .badAlloc () := by
  have hc : ∀ ret, (f.call ret).1 = 0 := by
    intro ret
    unfold Fmt.call
    split
    · simp [he]
    · rfl
  have key1 : ∀ fuel ret s, strftimeLoop maxSize f fuel ret () ≠ .ok s () := by
    intro fuel
    induction fuel with
    | zero => intro ret s; simp [strftimeLoop, hc]
    | succ fuel ih =>
      intro ret s
      unfold strftimeLoop
      simp only [hc, if_true, bind_apply, call_length]
      by_cases hlt : maxSize < 2 * ret.length
      · simp [resize, hlt]
      · obtain ⟨t, ht, -⟩ := resize_length (s := (f.call ret).2) (show 2 * ret.length ≤ maxSize by omega)
        rw [ht]
        exact ih t s
  have key2 : ∀ fuel (ret : List Nat), 0 < ret.length → ret.length ≤ maxSize → maxSize < fuel + ret.length →
      strftimeLoop maxSize f fuel ret () = .throw .badAlloc () := by
    intro fuel
    induction fuel with
    | zero => intro ret _ _ _; omega
    | succ fuel ih =>
      intro ret h0 h1 h2
      unfold strftimeLoop
      simp only [hc, if_true, bind_apply, call_length]
      by_cases hlt : maxSize < 2 * ret.length
      · simp [resize, hlt]
      · obtain ⟨t, ht, hl, -⟩ := resize_length (s := (f.call ret).2) (show 2 * ret.length ≤ maxSize by omega)
        rw [ht]
        exact ih t (by omega) (by omega) (by omega)
  constructor
  · intro fuel s
    by_cases h128 : maxSize < 128
    · simp [strftime, resize, h128]
    · obtain ⟨t, ht, -⟩ := resize_length (s := []) (show 128 ≤ maxSize by omega)
      simp only [strftime, bind_apply, ht]
      exact key1 fuel t s
  · intro fuel hf
    by_cases h128 : maxSize < 128
    · simp [strftime, resize, h128]
    · obtain ⟨t, ht, hl, -⟩ := resize_length (s := []) (show 128 ≤ maxSize by omega)
      simp only [strftime, bind_apply, ht]
      exact key2 fuel t (by omega) (by omega) (by omega)

/-! ### Concrete cases -/

/-- adding -1500 milliseconds subtracts one second -/
example : Dur.Ok ⟨1, 1000, -1500⟩ ∧ run [.fromSeconds 0 100, .add 1 0 ⟨1, 1000, -1500⟩, .diff 1 0, .lt 1 0, .addAssign 1 ⟨3600, 1, 2⟩, .seconds 1]
    (fun _ => 0) = some ([.unit, .unit, .num (-1), .bool true, .unit, .num 7299], Function.update (Function.update (Function.update (fun _ => 0) 0 100) 1 99) 1 7299) :=
  ⟨⟨by decide, by decide, by decide⟩, rfl⟩

example : strftime 4096 ⟨[50, 48, 50, 54], fun _ => []⟩ 4 () = .ok [50, 48, 50, 54] () :=
  C37_strftime_partial _ _ (by decide) (by decide) (by decide) _ (by decide)

end Itlib.TimeT
