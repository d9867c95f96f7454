import Verif.ThrowEx.Model

/-! # C53: `throw_ex` throws what was streamed, if nothing else is going on -/
namespace Itlib.ThrowEx
variable {S X : Type} (L : Lang S X)

/-- the operand does not throw, whatever was printed before -/
def Operand.Quiet (op : Operand S X) : Prop := op.eval = .ok () ∧ ∀ s, ∃ s', op.print s = .ok s'

/-- there is no `throw_ex` in the program -/
def Free : Prog S X → Prop
  | .skip | .raise _ => True
  | .throwEx _ => False
  | .seq p q | .scope p q => Free p ∧ Free q
  | .tryCatch p q => Free p ∧ ∀ x, Free (q x)

/-- a scope can only be left by an exception if its destructor does not use `throw_ex` -/
def NoThrow (L : Lang S X) (p : Prog S X) : Prop := ∀ x, Ideal.eval L p ≠ .threw x

/-- The condition under which `throw_ex` is right: operands do not throw, and destructors that use `throw_ex` do not run
because of an exception. -/
def Sober (L : Lang S X) : Prog S X → Prop
  | .skip | .raise _ => True
  | .throwEx ops => ∀ op ∈ ops, op.Quiet
  | .seq p q => Sober L p ∧ Sober L q
  | .tryCatch p q => Sober L p ∧ ∀ x, Sober L (q x)
  | .scope p q => Sober L p ∧ (Free q ∨ Sober L q ∧ NoThrow L p)

theorem eval_free {p : Prog S X} (h : Free p) (n : Nat) : eval L p n = Ideal.eval L p := by
  induction p generalizing n with
  | skip => rfl
  | throwEx ops => exact h.elim
  | raise x => rfl
  | seq p q ihp ihq => simp only [eval, Ideal.eval, ihp h.1, ihq h.2]; all_goals (cases Ideal.eval L p <;> cases Ideal.eval L q <;> rfl)
  | tryCatch p q ihp ihq =>
    simp only [eval, Ideal.eval, ihp h.1]
    cases Ideal.eval L p with
    | threw x => exact ihq x (h.2 x) n
    | _ => rfl
  | scope p q ihp ihq =>
    simp only [eval, Ideal.eval, ihp h.1, ihq h.2]; all_goals (cases Ideal.eval L p <;> cases Ideal.eval L q <;> rfl)

/-- operands that do not throw -/
theorem stream_quiet {ops : List (Operand S X)} (h : ∀ op ∈ ops, op.Quiet) (s : S) (n : Nat) :
    ∃ s', Ideal.stream ops s = .ok s' ∧ stream L ops s n = destroy L s' n := by
  induction ops generalizing s with
  | nil => exact ⟨s, rfl, rfl⟩
  | cons op ops ih =>
    obtain ⟨h1, h2⟩ := h op (by simp)
    obtain ⟨s1, h3⟩ := h2 s
    obtain ⟨s2, h4, h5⟩ := ih (fun op hop => h op (by simp [hop])) s1
    exact ⟨s2, by simp [Ideal.stream, h1, h3, h4], by simp [stream, h1, h3, h5]⟩

/-- **C53, in part.** A program in which operands do not throw, and in which `throw_ex` is not used by destructors that run
because of an exception, does what it would do with plain throws: each `throw_ex` throws an `E` made from everything that
was streamed, in order. Missing: the other programs, for which this is false (below). -/
theorem C53_program_partial (p : Prog S X) (h : Sober L p) : eval L p 0 = Ideal.eval L p := by
  induction p with
  | skip => rfl
  | throwEx ops =>
    obtain ⟨s, h1, h2⟩ := stream_quiet L h L.fresh 0
    simp [eval, Ideal.eval, throwEx, h1, h2, destroy]
  | raise x => rfl
  | seq p q ihp ihq => simp only [eval, Ideal.eval, ihp h.1, ihq h.2]; all_goals (cases Ideal.eval L p <;> cases Ideal.eval L q <;> rfl)
  | tryCatch p q ihp ihq =>
    simp only [eval, Ideal.eval, ihp h.1]
    cases Ideal.eval L p with
    | threw x => exact ihq x (h.2 x)
    | _ => rfl
  | scope p q ihp ihq =>
    simp only [eval, Ideal.eval, ihp h.1]
    rcases h.2 with hf | ⟨hs, hn⟩
    · simp only [eval_free L hf]; all_goals (cases Ideal.eval L p <;> cases Ideal.eval L q <;> rfl)
    · rw [ihq hs]
      cases hp : Ideal.eval L p with
      | threw x => exact absurd hp (hn x)
      | _ => rfl

/-- **C53.** What the expression does, in all cases: it throws the exception with the text if no operand throws and no
exception is on its way, and otherwise it ends the program. It never returns. -/
theorem C53_exact (ops : List (Operand S X)) (n : Nat) :
    eval L (.throwEx ops) n = match Ideal.stream ops L.fresh with
      | .ok s => if n = 0 then .threw (L.ex s) else .terminated
      | .error _ => .terminated := by
  simp only [eval, throwEx]
  generalize L.fresh = s
  induction ops generalizing s with
  | nil => by_cases h : n = 0 <;> simp [stream, Ideal.stream, destroy, h]
  | cons op ops ih =>
    simp only [stream, Ideal.stream]
    cases op.eval with
    | error x => simp [stream.unwind, destroy]
    | ok u =>
      cases hp : op.print s with
      | error x => simp [stream.unwind, destroy]
      | ok s1 => exact ih s1

/-- **C53, where it fails.** If evaluating or printing an operand throws, the program ends; the exception can not be
caught. -/
theorem C53_operand_defect (ops : List (Operand S X)) (x : X) (h : Ideal.stream ops L.fresh = .error x) (q : X → Prog S X) :
    Ideal.eval L (.throwEx ops) = .threw x ∧ Ideal.eval L (.tryCatch (.throwEx ops) q) = Ideal.eval L (q x) ∧
    ∀ n, eval L (.throwEx ops) n = .terminated ∧ eval L (.tryCatch (.throwEx ops) q) n = .terminated := by
  have h1 : ∀ n, eval L (.throwEx ops) n = .terminated := fun n => by rw [C53_exact, h]
  refine ⟨by simp [Ideal.eval, h], by simp [Ideal.eval, h], fun n => ⟨h1 n, ?_⟩⟩
  have h2 := h1 n
  simp only [eval] at h2 ⊢
  rw [h2]

/-- **C53, where it fails.** In a destructor that runs because of an exception, `throw_ex` ends the program, even if the
destructor catches what is thrown. -/
theorem C53_unwinding_defect (body : Prog S X) (x : X) (n : Nat) (hb : eval L body n = .threw x) (ops : List (Operand S X)) :
    eval L (.scope body (.tryCatch (.throwEx ops) fun _ => .skip)) n = .terminated := by
  have h1 : eval L (.throwEx ops) (n + 1) = .terminated := by
    rw [C53_exact]
    cases Ideal.stream ops L.fresh <;> simp
  simp only [eval] at h1 ⊢
  simp only [hb, h1]

/-- and it should not -/
theorem C53_unwinding_ideal (body : Prog S X) (x : X) (hb : Ideal.eval L body = .threw x) (ops : List (Operand S X)) :
    Ideal.eval L (.scope body (.tryCatch (.throwEx ops) fun _ => .skip)) = .threw x := by
  cases h : Ideal.stream ops L.fresh <;> simp [Ideal.eval, hb, h]

/-! ### Concrete cases: streams are texts, exceptions are texts -/
section Cases

def texts : Lang String String := ⟨"", id⟩
def lit (s : String) : Operand String String := ⟨.ok (), fun o => .ok (o ++ s)⟩
def bad : Operand String String := ⟨.error "bad", .ok⟩

theorem lit_quiet (s : String) : (lit s).Quiet := ⟨rfl, fun _ => ⟨_, rfl⟩⟩

example : Ideal.eval texts (.tryCatch (.throwEx [lit "a", lit "b"]) fun x => .raise (x ++ "!")) = .threw "ab!" := by
  simp [Ideal.eval, Ideal.stream, texts, lit]

/-- a program that meets the condition: destructors on the normal path may use `throw_ex` -/
example : Sober texts (.tryCatch (.scope .skip (.throwEx [lit "x"])) fun _ => .scope (.raise "y") .skip) := by
  simp [Sober, lit_quiet, NoThrow, Ideal.eval, Free]

example : Ideal.stream [lit "a", bad] texts.fresh = .error "bad" := by simp [Ideal.stream, lit, bad]
example : eval texts (.raise "y") 0 = .threw "y" := rfl

end Cases
end Itlib.ThrowEx
