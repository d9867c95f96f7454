import Verif.Pmr.Spec

/-! # Property C45: pmr_allocator -/
namespace Itlib.Pmr
open Itlib
variable {V : Type} (T : Types)

def exec : Op V → Mem V Reply
  | .newObject p ty v f => do let p ← newObject T p ty v f; pure (.ptr p)
  | .deleteObject p ty => do deleteObject T p ty; pure .done
  | .allocateObject p ty n fail => do let p ← allocateObject T p ty n fail; pure (.ptr p)
  | .deallocateObject p ty n => do deallocateObject T p ty n; pure .done

/-- A call, the caller catching exceptions; `none` is undefined behaviour. -/
def call (op : Op V) (w : World V) : Option (Reply × World V) :=
  match exec T op w with
  | .ok r w => some (r, w)
  | .throw e w => some (.exc e, w)
  | .ub => none

def run : List (Op V) → World V → Option (List Reply × World V)
  | [], w => some ([], w)
  | op :: ops, w => do
    let (r, w) ← call T op w
    let (rs, w) ← run ops w
    some (r :: rs, w)

/-- the resource that has handed out exactly `y` -/
def world (y : Spec.Sys V) : World V := fun p => (y p).map (Spec.block T)

theorem world_update (y : Spec.Sys V) (p : Nat) (e : Option (Entry V)) :
    world T (Function.update y p e) = Function.update (world T y) p (e.map (Spec.block T)) := by
  funext k
  by_cases h : k = p
  · subst h; simp [world]
  · simp [world, Function.update_of_ne h]

theorem update_none (w : World V) (p : Nat) (h : w p = none) : Function.update w p none = w := by
  rw [← h]; exact Function.update_eq_self _ _

/-- A `sizeof` is less than `2^64`. -/
def Types.Ok (T : Types) : Prop := ∀ ty, T.size ty < 2 ^ 64

theorem call_refines (hT : T.Ok) {op : Op V} {y y' : Spec.Sys V} {r : Reply} (hsafe : Spec.Safe T op)
    (hinv : ∀ p ty n, y p = some (.room ty n) → n * T.size ty < 2 ^ 64)
    (hs : Spec.step op y = some (r, y')) :
    call T op (world T y) = some (r, world T y') ∧ ∀ p ty n, y' p = some (.room ty n) → n * T.size ty < 2 ^ 64 := by
  have hmod : ∀ ty, T.size ty % 18446744073709551616 = T.size ty := fun ty => Nat.mod_eq_of_lt (hT ty)
  have upd : ∀ (p : Nat) (e : Option (Entry V)),
      (∀ ty n, e = some (.room ty n) → n * T.size ty < 2 ^ 64) →
      ∀ q ty n, Function.update y p e q = some (.room ty n) → n * T.size ty < 2 ^ 64 := by
    intro p e he q ty n hq
    by_cases hqp : q = p
    · subst hqp; rw [Function.update_self] at hq; exact he ty n hq
    · rw [Function.update_of_ne hqp] at hq; exact hinv q ty n hq
  cases op with
  | newObject p ty v f =>
    rcases hp : y p with _ | e
    · have hw : world T y p = none := by simp [world, hp]
      cases f <;> simp [Spec.step, hp] at hs <;> obtain ⟨rfl, rfl⟩ := hs
      · refine ⟨?_, upd p _ (by simp)⟩
        simp [call, exec, newObject, allocateObject, allocateBytes, hw, construct, hmod, world_update, Spec.block]
      · exact ⟨by simp [call, exec, newObject, allocateObject, allocateBytes], hinv⟩
      · refine ⟨?_, hinv⟩
        simp [call, exec, newObject, allocateObject, allocateBytes, hw, construct, hmod, deallocateObject, deallocateBytes,
          update_none _ _ hw]
    · simp [Spec.step, hp] at hs
  | deleteObject p ty =>
    rcases hp : y p with _ | (⟨t, v⟩ | ⟨t, n⟩) <;> simp [Spec.step, hp] at hs
    obtain ⟨rfl, rfl, rfl⟩ := hs
    have hw : world T y p = some ⟨T.size t, T.align t, some (t, v)⟩ := by simp [world, hp, Spec.block]
    refine ⟨?_, upd p _ (by simp)⟩
    simp [call, exec, deleteObject, destruct, hw, deallocateObject, deallocateBytes, hmod, world_update]
  | allocateObject p ty n fail =>
    rcases hp : y p with _ | e
    · have hw : world T y p = none := by simp [world, hp]
      have hsf : n * T.size ty % 18446744073709551616 = n * T.size ty := Nat.mod_eq_of_lt hsafe
      cases fail <;> simp [Spec.step, hp] at hs <;> obtain ⟨rfl, rfl⟩ := hs
      · refine ⟨?_, upd p _ ?_⟩
        · simp [call, exec, allocateObject, allocateBytes, hw, hsf, world_update, Spec.block]
        · rintro t m h
          simp only [Option.some.injEq, Entry.room.injEq] at h
          obtain ⟨rfl, rfl⟩ := h
          exact hsafe
      · exact ⟨by simp [call, exec, allocateObject, allocateBytes], hinv⟩
    · simp [Spec.step, hp] at hs
  | deallocateObject p ty n =>
    rcases hp : y p with _ | (⟨t, v⟩ | ⟨t, m⟩) <;> simp [Spec.step, hp] at hs
    obtain ⟨⟨rfl, rfl⟩, rfl, rfl⟩ := hs
    have hw : world T y p = some ⟨m * T.size t, T.align t, none⟩ := by simp [world, hp, Spec.block]
    have hsf : m * T.size t % 18446744073709551616 = m * T.size t := Nat.mod_eq_of_lt (hinv p t m hp)
    refine ⟨?_, upd p _ (by simp)⟩
    simp [call, exec, hw, deallocateObject, deallocateBytes, hsf, world_update]

/-- **C45.** Over every history of `new_object`, `delete_object`, `allocate_object`, `deallocate_object` calls, with
arbitrary failures of the resource and of constructors: the replies are as specified, nothing undefined happens (so every
block goes back with its own size and alignment and without a live object), and the resource has handed out exactly one
block per existing object (or raw array) with the object in it; nothing is left of a `new_object` that threw. -/
theorem C45_pmr_objects_balance (hT : T.Ok) (ops : List (Op V)) (hsafe : ∀ op ∈ ops, Spec.Safe T op) (rs : List Reply)
    (y : Spec.Sys V) (hrun : Spec.run ops (fun _ => none) = some (rs, y)) :
    ∃ w, run T ops (fun _ => none) = some (rs, w) ∧ ∀ p, w p = (y p).map (Spec.block T) := by
  suffices H : ∀ (y0 : Spec.Sys V), (∀ p ty n, y0 p = some (.room ty n) → n * T.size ty < 2 ^ 64) → ∀ rs y,
      Spec.run ops y0 = some (rs, y) → run T ops (world T y0) = some (rs, world T y) by
    exact ⟨world T y, H (fun _ => none) (by simp) rs y hrun, fun _ => rfl⟩
  clear hrun
  induction ops with
  | nil => intro y0 _ rs y h; simp [Spec.run] at h; obtain ⟨rfl, rfl⟩ := h; rfl
  | cons op ops ih =>
    intro y0 h0 rs y h
    cases h1 : Spec.step op y0 with
    | none => simp [Spec.run, h1] at h
    | some p =>
      obtain ⟨r, y1⟩ := p
      cases h2 : Spec.run ops y1 with
      | none => simp [Spec.run, h1, h2] at h
      | some q =>
        obtain ⟨rs1, y2⟩ := q
        simp only [Spec.run, h1, h2, Option.bind_eq_bind, Option.bind_some, Option.some.injEq, Prod.mk.injEq] at h
        obtain ⟨rfl, rfl⟩ := h
        obtain ⟨e1, i1⟩ := call_refines T hT (hsafe op (by simp)) h0 h1
        simp [run, e1, ih (fun o ho => hsafe o (by simp [ho])) y1 i1 _ _ h2]

example : ∃ rs y, (⟨fun t => 8 * t, fun _ => 8⟩ : Types).size 3 < 2 ^ 64 ∧
    Spec.run [.newObject 5 3 'a' .fine, .newObject 6 3 'b' .throws, .newObject 6 1 'b' .badAlloc, .allocateObject 6 2 10 false,
      .deleteObject 5 3, .newObject 5 2 'c' .fine, .deallocateObject 6 2 10] (fun _ => none) = some (rs, y) ∧
    rs = [.ptr 5, .exc .element, .exc .badAlloc, .ptr 6, .done, .ptr 5, .done] :=
  ⟨_, _, by decide, rfl, rfl⟩

example : (⟨fun t => t % 100, fun _ => 8⟩ : Types).Ok := by
  intro ty
  have := Nat.mod_lt ty (show 100 > 0 by decide)
  show ty % 100 < _
  omega

/-- `allocate_object` does not check for overflow: for a count so large that the number of bytes does not fit in
`size_t`, it returns a block that is too small (the standard version throws `bad_array_new_length`). -/
theorem C45_pmr_allocate_object_overflow_defect (p ty n : Nat) (w : World V) (hw : w p = none)
    (hn : 2 ^ 64 ≤ n * T.size ty) :
    ∃ b w', allocateObject T p ty n false w = .ok p w' ∧ w' p = some b ∧ b.bytes < n * T.size ty := by
  refine ⟨_, _, by simp [allocateObject, allocateBytes, hw]; rfl, by simp; rfl, ?_⟩
  have := Nat.mod_lt (n * T.size ty) (show 18446744073709551616 > 0 by decide)
  simp only
  omega

example : 2 ^ 64 ≤ (2 ^ 61) * (⟨fun _ => 8, fun _ => 8⟩ : Types).size 0 := by decide

end Itlib.Pmr
