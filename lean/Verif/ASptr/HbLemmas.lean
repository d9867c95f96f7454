import Verif.ASptr.Hb
import Verif.ASptr.Props

namespace Itlib.ASptr
open Itlib.Conc

variable {o : Orders} {es : List Event} {e : Event} {i j k t : Nat} {l : Lab}

/-! ### Events of a list that grows -/

theorem Is.lt (h : Is es i l) : i < es.length := by
  obtain ⟨t, h⟩ := h
  exact (List.getElem?_eq_some_iff.mp h).1

theorem By.lt (h : By es i t) : i < es.length := by
  obtain ⟨t, h⟩ := h
  exact (List.getElem?_eq_some_iff.mp h).1

theorem is_old (h : i < es.length) : Is (es ++ [e]) i l ↔ Is es i l := by
  simp only [Is, List.getElem?_append_left h]

theorem by_old (h : i < es.length) : By (es ++ [e]) i t ↔ By es i t := by
  simp only [By, List.getElem?_append_left h]

theorem is_new : Is (es ++ [e]) es.length l ↔ e.lab = l := by
  simp only [Is, List.getElem?_concat_length, Option.some.injEq]
  constructor
  · rintro ⟨t, rfl⟩; rfl
  · rintro rfl; exact ⟨_, rfl⟩

theorem by_new : By (es ++ [e]) es.length t ↔ e.tid = t := by
  simp only [By, List.getElem?_concat_length, Option.some.injEq]
  constructor
  · rintro ⟨t, rfl⟩; rfl
  · rintro rfl; exact ⟨_, rfl⟩

theorem Is.mono (h : Is es i l) : Is (es ++ [e]) i l := (is_old h.lt).mpr h
theorem By.mono (h : By es i t) : By (es ++ [e]) i t := (by_old h.lt).mpr h

theorem is_cases (h : Is (es ++ [e]) i l) : (i < es.length ∧ Is es i l) ∨ (i = es.length ∧ e.lab = l) := by
  have h1 := h.lt
  simp only [List.length_append, List.length_singleton] at h1
  by_cases h2 : i < es.length
  · exact Or.inl ⟨h2, (is_old h2).mp h⟩
  · have : i = es.length := by omega
    subst this
    exact Or.inr ⟨rfl, is_new.mp h⟩

theorem Is.inj {l' : Lab} (h : Is es i l) (h' : Is es i l') : l = l' := by
  obtain ⟨t, h⟩ := h
  obtain ⟨t', h'⟩ := h'
  rw [h] at h'
  cases h'; rfl

theorem Sync.mono (h : Sync o es i j) : Sync o (es ++ [e]) i j := by
  cases h with
  | lock h ha hr hi hj hn =>
    exact .lock h ha hr hi.mono hj.mono fun k h1 h2 h3 => hn k h1 h2 ((is_old (Nat.lt_trans h2 hj.lt)).mp h3)
  | count h q b b' hi hj hn =>
    exact .count h q b b' hi.mono hj.mono fun k h1 h2 h3 => hn k h1 h2 ((is_old (Nat.lt_trans h2 hj.lt)).mp h3)
  | slot h b hi hj => exact .slot h b hi.mono hj.mono

theorem Hb.mono (h : Hb o es i j) : Hb o (es ++ [e]) i j := by
  induction h with
  | po h t hi hj => exact .po h t hi.mono hj.mono
  | sync h => exact .sync h.mono
  | trans _ _ h1 h2 => exact h1.trans h2

theorem Hb.lt (h : Hb o es i j) : i < j := by
  induction h with
  | po h => exact h
  | sync h => cases h <;> assumption
  | trans _ _ h1 h2 => exact Nat.lt_trans h1 h2

/-- before or the same -/
def Le (o : Orders) (es : List Event) (i j : Nat) : Prop := i = j ∨ Hb o es i j

theorem Le.mono (h : Le o es i j) : Le o (es ++ [e]) i j := h.imp_right Hb.mono

theorem Le.hb (h : Le o es i j) (h' : Hb o es j k) : Hb o es i k := by
  rcases h with rfl | h
  · exact h'
  · exact h.trans h'

/-! ### What is before what a thread does next -/

/-- event `i` is, or is before, an event of thread `t` -/
def Seen (o : Orders) (es : List Event) (t i : Nat) : Prop := ∃ k, By es k t ∧ Le o es i k

theorem Seen.mono (h : Seen o es t i) : Seen o (es ++ [e]) t i := by
  obtain ⟨k, h1, h2⟩ := h
  exact ⟨k, h1.mono, h2.mono⟩

theorem Seen.hb (h : Seen o es t i) (he : e.tid = t) : Hb o (es ++ [e]) i es.length := by
  obtain ⟨k, h1, h2⟩ := h
  exact h2.mono.hb (.po h1.lt t h1.mono (by_new.mpr he))

theorem Seen.new (he : e.tid = t) : Seen o (es ++ [e]) t es.length := ⟨_, by_new.mpr he, Or.inl rfl⟩

theorem Seen.of_hb (he : e.tid = t) (h : Hb o (es ++ [e]) i es.length) : Seen o (es ++ [e]) t i := ⟨_, by_new.mpr he, Or.inr h⟩

/-- Event `i` is before what the next thread does that gets hold of what is in place `p`. -/
def Knows (es : List Event) (s : St) : Spec.Place → Nat → Prop
  | .var t _, i => Seen coded es t i
  | .slot b, i => ∃ k, Is es k (.slot b) ∧ Le coded es i k
  | .storage, i =>
    match s.holder with
    | none => ∃ u, Is es u .unlock ∧ (∀ k, u < k → ¬ Is es k .unlock) ∧ Le coded es i u
    | some t => Seen coded es t i

variable {s s' : St}

theorem knows_held {t : Nat} (h : s.holder = some t) : Knows es s .storage i ↔ Seen coded es t i := by simp only [Knows, h]

/-- steps that do not touch the lock keep what is known -/
theorem Knows.mono {p : Spec.Place} (hh : s'.holder = s.holder) (hu : e.lab ≠ .unlock) (h : Knows es s p i) : Knows (es ++ [e]) s' p i := by
  cases p with
  | var t x => exact Seen.mono h
  | slot b =>
    obtain ⟨k, h1, h2⟩ := h
    exact ⟨k, h1.mono, h2.mono⟩
  | storage =>
    unfold Knows at h ⊢
    rw [hh]
    cases hs : s.holder with
    | none =>
      rw [hs] at h
      obtain ⟨u, h1, h2, h3⟩ := h
      refine ⟨u, h1.mono, ?_, h3.mono⟩
      intro k hk h4
      rcases is_cases h4 with ⟨-, h5⟩ | ⟨-, h5⟩
      · exact h2 k hk h5
      · exact hu h5
    | some t =>
      rw [hs] at h
      exact Seen.mono h

/-! ### Invariant -/

/-- the last construction of an object of `q` is not after `i` -/
def NoLater (es : List Event) (q i : Nat) : Prop := ∀ k, i < k → ¬ Is es k (.con q)

theorem NoLater.old {q : Nat} (h : NoLater (es ++ [e]) q i) : NoLater es q i := fun k hk h' => h k hk h'.mono

structure Inv (es : List Event) (s : St) : Prop where
  words : ∀ i w b, Is es i (.word w b) → Knows es s .storage i
  births : ∀ q i, q ≠ 0 → Is es i (.con q) → NoLater es q i → ∀ p, Spec.owns s p = q → Knows es s p i
  touched : ∀ q i, q ≠ 0 → Touches es i q → NoLater es q i →
    (∃ p, Spec.owns s p = q ∧ Knows es s p i) ∨ ∃ d b, Is es d (.dec q b) ∧ NoLater es q d ∧ Le coded es i d
  ordered : ∀ i j w w' b b', Is es i (.word w b) → Is es j (.word w' b') → i < j → Hb coded es i j
  pub : ∀ q i j, q ≠ 0 → Is es i (.con q) → i < j → Touches es j q → SameLife es q i j → Hb coded es i j
  last : ∀ q j, q ≠ 0 → Is es j (.dec q true) → ∀ i, i < j → Touches es i q → SameLife es q i j → Hb coded es i j

theorem inv_start (s : St) : Inv [] s := by
  constructor
  all_goals simp [Is, Touches]

/-- the label touches the object of `q` -/
def Lab.touches (l : Lab) (q : Nat) : Prop := l = .con q ∨ l = .use q ∨ l = .inc q ∨ ∃ b, l = .dec q b

theorem touches_cases {q : Nat} (h : Touches (es ++ [e]) i q) : (i < es.length ∧ Touches es i q) ∨ (i = es.length ∧ e.lab.touches q) := by
  rcases h with h | h | h | ⟨b, h⟩ <;> rcases is_cases h with ⟨h1, h2⟩ | ⟨h1, h2⟩
  · exact Or.inl ⟨h1, Or.inl h2⟩
  · exact Or.inr ⟨h1, Or.inl h2⟩
  · exact Or.inl ⟨h1, Or.inr (Or.inl h2)⟩
  · exact Or.inr ⟨h1, Or.inr (Or.inl h2)⟩
  · exact Or.inl ⟨h1, Or.inr (Or.inr (Or.inl h2))⟩
  · exact Or.inr ⟨h1, Or.inr (Or.inr (Or.inl h2))⟩
  · exact Or.inl ⟨h1, Or.inr (Or.inr (Or.inr ⟨b, h2⟩))⟩
  · exact Or.inr ⟨h1, Or.inr (Or.inr (Or.inr ⟨b, h2⟩))⟩

/-- what a step has to do -/
structure Good (es : List Event) (s : St) (e : Event) (s' : St) : Prop where
  reg : ∀ i, Knows es s .storage i → Knows (es ++ [e]) s' .storage i
  from_ : ∀ p' q, q ≠ 0 → Spec.owns s' p' = q →
    (∃ p, Spec.owns s p = q ∧ ∀ i, Knows es s p i → Knows (es ++ [e]) s' p' i) ∨ (e.lab = .con q ∧ Knows (es ++ [e]) s' p' es.length)
  into : ∀ p q, q ≠ 0 → Spec.owns s p = q →
    (∃ p', Spec.owns s' p' = q ∧ ∀ i, Knows es s p i → Knows (es ++ [e]) s' p' i) ∨
    ∃ b, e.lab = .dec q b ∧ ∀ i, Knows es s p i → Seen coded es e.tid i
  word : ∀ w b, e.lab = .word w b → s.holder = some e.tid ∧ s'.holder = some e.tid
  con : ∀ q, e.lab = .con q → ∀ p, Spec.owns s p ≠ q
  touch : ∀ q, e.lab.touches q → e.lab ≠ .con q → ∃ p, Spec.owns s p = q ∧ ∀ i, Knows es s p i → Seen coded es e.tid i
  keep : ∀ q, e.lab.touches q → (∀ b, e.lab ≠ .dec q b) → ∃ p', Spec.owns s' p' = q ∧ Knows (es ++ [e]) s' p' es.length
  sole : ∀ q, e.lab = .dec q true → ∀ p, Spec.owns s p = q → ∀ i, Knows es s p i → Seen coded es e.tid i

theorem noLater_of_same {q n : Nat} (h : SameLife es q i n) (hn : es.length ≤ n + 1) : NoLater es q i := by
  intro k hk h'
  exact h k hk (by have := h'.lt; omega) h'

theorem Inv.step (h : Inv es s) (g : Good es s e s') : Inv (es ++ [e]) s' := by
  have nocon : ∀ {q i}, NoLater (es ++ [e]) q i → i < es.length → e.lab ≠ .con q := fun h h1 h2 => h _ h1 (is_new.mpr h2)
  have newest : ∀ q, NoLater (es ++ [e]) q es.length := by
    intro q k hk h'
    have := h'.lt
    simp only [List.length_append, List.length_singleton] at this
    omega
  constructor
  · intro i w b hi
    rcases is_cases hi with ⟨h1, h2⟩ | ⟨rfl, h2⟩
    · exact g.reg i (h.words i w b h2)
    · rw [knows_held (g.word w b h2).2]
      exact Seen.new rfl
  · intro q i hq hi hl p hp
    rcases is_cases hi with ⟨h1, h2⟩ | ⟨rfl, h2⟩
    · rcases g.from_ p q hq hp with ⟨p', h3, h4⟩ | ⟨h3, -⟩
      · exact h4 i (h.births q i hq h2 hl.old p' h3)
      · exact absurd h3 (nocon hl h1)
    · rcases g.from_ p q hq hp with ⟨p', h3, -⟩ | ⟨-, h3⟩
      · exact absurd h3 (g.con q h2 p')
      · exact h3
  · intro q i hq ht hl
    rcases touches_cases ht with ⟨h1, h2⟩ | ⟨rfl, h2⟩
    · rcases h.touched q i hq h2 hl.old with ⟨p, h3, h4⟩ | ⟨d, b, h3, h4, h5⟩
      · rcases g.into p q hq h3 with ⟨p', h6, h7⟩ | ⟨b, h6, h7⟩
        · exact Or.inl ⟨p', h6, h7 i h4⟩
        · exact Or.inr ⟨es.length, b, is_new.mpr h6, newest q, Or.inr ((h7 i h4).hb rfl)⟩
      · refine Or.inr ⟨d, b, h3.mono, ?_, h5.mono⟩
        intro k hk h6
        rcases is_cases h6 with ⟨-, h7⟩ | ⟨-, h7⟩
        · exact h4 k hk h7
        · exact nocon hl h1 h7
    · by_cases hd : ∃ b, e.lab = .dec q b
      · obtain ⟨b, hd⟩ := hd
        exact Or.inr ⟨_, b, is_new.mpr hd, newest q, Or.inl rfl⟩
      · exact Or.inl (g.keep q h2 fun b hb => hd ⟨b, hb⟩)
  · intro i j w w' b b' hi hj hij
    rcases is_cases hj with ⟨h1, h2⟩ | ⟨rfl, h2⟩
    · exact (h.ordered i j w w' b b' ((is_old (Nat.lt_trans hij h1)).mp hi) h2 hij).mono
    · have := h.words i w b ((is_old hij).mp hi)
      rw [knows_held (g.word w' b' h2).1] at this
      exact this.hb rfl
  · intro q i j hq hi hij hj hl
    rcases touches_cases hj with ⟨h1, h2⟩ | ⟨rfl, h2⟩
    · refine (h.pub q i j hq ((is_old (Nat.lt_trans hij h1)).mp hi) hij h2 ?_).mono
      exact fun k h3 h4 h5 => hl k h3 h4 h5.mono
    · obtain ⟨p, h3, h4⟩ := g.touch q h2 fun h5 => hl _ hij (Nat.le_refl _) (is_new.mpr h5)
      refine (h4 i (h.births q i hq ((is_old hij).mp hi) ?_ p h3)).hb rfl
      exact fun k h5 h6 => hl k h5 (Nat.le_of_lt h6.lt) h6.mono
  · intro q j hq hj i hij hi hl
    rcases is_cases hj with ⟨h1, h2⟩ | ⟨rfl, h2⟩
    · refine (h.last q j hq h2 i hij ?_ fun k h3 h4 h5 => hl k h3 h4 h5.mono).mono
      rcases touches_cases hi with ⟨-, h3⟩ | ⟨h3, -⟩
      · exact h3
      · omega
    · rcases touches_cases hi with ⟨-, h3⟩ | ⟨h3, -⟩
      · rcases h.touched q i hq h3 fun k h5 h6 => hl k h5 (Nat.le_of_lt h6.lt) h6.mono with ⟨p, h4, h5⟩ | ⟨d, b, h4, h5, h6⟩
        · exact (g.sole q h2 p h4 i h5).hb rfl
        · refine h6.mono.hb (.sync (.count h4.lt q b true h4.mono (is_new.mpr h2) ?_))
          intro k h7 h8 h9
          exact h5 k h7 ((is_old h8).mp h9)
      · omega

/-! ### Steps -/

theorem run_exec {v₀ : SP} {c : Config Act Act.Res St Op Out} (h : Run v₀ es c) : ∃ tr, Exec sys body (initial v₀) tr c := by
  induction h with
  | start => exact ⟨_, .start⟩
  | inv h t f ht ih => exact ⟨_, ih.choose_spec.step (.inv t f ht)⟩
  | act h t f a k r s' ht hd ih => exact ⟨_, ih.choose_spec.step (.act t f a k r s' ht hd)⟩
  | ret h t f y ht ih => exact ⟨_, ih.choose_spec.step (.ret t f y ht)⟩

/-- steps that change nothing shared -/
theorem good_quiet (ho : Spec.owns s' = Spec.owns s) (hh : s'.holder = s.holder) (hu : e.lab ≠ .unlock)
    (hw : ∀ w b, e.lab = .word w b → s.holder = some e.tid) (ht : ∀ q, e.lab.touches q → e.lab = .use q ∧ ∃ x, Spec.owns s (.var e.tid x) = q) :
    Good es s e s' where
  reg i h := h.mono hh hu
  from_ p' q _ hp := Or.inl ⟨p', by rw [← ho]; exact hp, fun i h => h.mono hh hu⟩
  into p q _ hp := Or.inl ⟨p, by rw [ho]; exact hp, fun i h => h.mono hh hu⟩
  word w b h := ⟨hw w b h, by rw [hh]; exact hw w b h⟩
  con q h := by
    have := (ht q (Or.inl h)).1
    rw [h] at this; cases this
  touch q h _ := by
    obtain ⟨-, x, hx⟩ := ht q h
    exact ⟨_, hx, fun i h => h⟩
  keep q h _ := by
    obtain ⟨-, x, hx⟩ := ht q h
    exact ⟨.var e.tid x, by rw [ho]; exact hx, Seen.new rfl⟩
  sole q h := by
    have := (ht q (Or.inr (Or.inr (Or.inr ⟨_, h⟩)))).1
    rw [h] at this; cases this

/-- steps that exchange what two places own -/
theorem good_swap {a b : Spec.Place} (ho : Spec.owns s' = Function.update (Function.update (Spec.owns s) a (Spec.owns s b)) b (Spec.owns s a))
    (hh : s'.holder = s.holder) (hu : e.lab ≠ .unlock) (hw : ∀ w b, e.lab = .word w b → s.holder = some e.tid) (ht : ∀ q, ¬ e.lab.touches q)
    (hab : ∀ i, Knows es s a i → Knows (es ++ [e]) s' b i) (hba : ∀ i, Knows es s b i → Knows (es ++ [e]) s' a i) : Good es s e s' where
  reg i h := h.mono hh hu
  from_ p' q _ hp := by
    left
    rw [ho] at hp
    by_cases h2 : p' = b
    · subst h2; exact ⟨a, by simpa using hp, hab⟩
    · by_cases h1 : p' = a
      · subst h1; exact ⟨b, by simpa [h2] using hp, hba⟩
      · exact ⟨p', by simpa [h1, h2] using hp, fun i h => h.mono hh hu⟩
  into p q _ hp := by
    left
    rw [ho]
    by_cases h1 : p = a
    · subst h1; exact ⟨b, by simpa using hp, hab⟩
    · by_cases h2 : p = b
      · subst h2; exact ⟨a, by simpa [Ne.symm h1] using hp, hba⟩
      · exact ⟨p, by simpa [h1, h2] using hp, fun i h => h.mono hh hu⟩
  word w b h := ⟨hw w b h, by rw [hh]; exact hw w b h⟩
  con q h := absurd (Or.inl h) (ht q)
  touch q h := absurd h (ht q)
  keep q h := absurd h (ht q)
  sole q h := absurd (Or.inr (Or.inr (Or.inr ⟨_, h⟩))) (ht q)

/-- what the other threads' places know is kept when the lock changes hands -/
theorem knows_lock {p : Spec.Place} (hp : p ≠ .storage) (h : Knows es s p i) : Knows (es ++ [e]) s' p i := by
  cases p with
  | var t x => exact Seen.mono h
  | slot b =>
    obtain ⟨k, h1, h2⟩ := h
    exact ⟨k, h1.mono, h2.mono⟩
  | storage => exact absurd rfl hp

theorem good_lock (ho : Spec.owns s' = Spec.owns s) (hl : e.lab = .lock ∨ e.lab = .unlock)
    (hk : ∀ i, Knows es s .storage i → Knows (es ++ [e]) s' .storage i) : Good es s e s' := by
  have hk' : ∀ p i, Knows es s p i → Knows (es ++ [e]) s' p i := by
    intro p i h
    by_cases hp : p = .storage
    · subst hp; exact hk i h
    · exact knows_lock hp h
  have ht : ∀ q, ¬ e.lab.touches q := by
    intro q
    rcases hl with hl | hl <;> rw [hl] <;> rintro (h | h | h | ⟨b, h⟩) <;> cases h
  exact ⟨hk, fun p' q _ hp => Or.inl ⟨p', by rw [← ho]; exact hp, hk' p'⟩, fun p q _ hp => Or.inl ⟨p, by rw [ho]; exact hp, hk' p⟩,
    fun w b h => (by rcases hl with hl | hl <;> rw [hl] at h <;> cases h), fun q h => absurd (Or.inl h) (ht q), fun q h => absurd h (ht q),
    fun q h => absurd h (ht q), fun q h => absurd (Or.inr (Or.inr (Or.inr ⟨_, h⟩))) (ht q)⟩

/-- one more owner -/
theorem good_add {x : Var} {q : Nat} (ho : Spec.owns s' = Function.update (Spec.owns s) (.var e.tid x) q) (hx : Spec.owns s (.var e.tid x) = 0)
    (hh : s'.holder = s.holder)
    (hl : (e.lab = .inc q ∧ ∃ p, Spec.owns s p = q ∧ ∀ i, Knows es s p i → Seen coded es e.tid i) ∨ (e.lab = .con q ∧ ∀ p, Spec.owns s p ≠ q)) :
    Good es s e s' := by
  have hu : e.lab ≠ .unlock := by rcases hl with ⟨hl, -⟩ | ⟨hl, -⟩ <;> rw [hl] <;> simp
  have ht : ∀ q', e.lab.touches q' → q' = q := by
    intro q' h
    rcases hl with ⟨hl, -⟩ | ⟨hl, -⟩ <;> rw [hl] at h <;> rcases h with h | h | h | ⟨b, h⟩ <;> cases h <;> rfl
  have hn : ∀ q' b, e.lab ≠ .dec q' b := by rcases hl with ⟨hl, -⟩ | ⟨hl, -⟩ <;> rw [hl] <;> simp
  have hown : Spec.owns s' (.var e.tid x) = q := by rw [ho]; simp
  constructor
  · exact fun i h => h.mono hh hu
  · intro p' q' hq' hp'
    by_cases hp : p' = .var e.tid x
    · subst hp
      rw [hown] at hp'
      subst hp'
      rcases hl with ⟨-, p, h1, h2⟩ | ⟨hl, -⟩
      · exact Or.inl ⟨p, h1, fun i h => (h2 i h).mono⟩
      · exact Or.inr ⟨hl, Seen.new rfl⟩
    · rw [ho, Function.update_of_ne hp] at hp'
      exact Or.inl ⟨p', hp', fun i h => h.mono hh hu⟩
  · intro p q' hq' hp
    left
    have : p ≠ .var e.tid x := by rintro rfl; rw [hx] at hp; exact hq' hp.symm
    exact ⟨p, by rw [ho, Function.update_of_ne this]; exact hp, fun i h => h.mono hh hu⟩
  · intro w b h
    rcases hl with ⟨hl, -⟩ | ⟨hl, -⟩ <;> rw [hl] at h <;> cases h
  · intro q' h p
    rcases hl with ⟨hl, -⟩ | ⟨hl, hp⟩ <;> rw [hl] at h <;> cases h
    exact hp p
  · intro q' h h'
    have := ht q' h
    subst this
    rcases hl with ⟨-, hl⟩ | ⟨hl, -⟩
    · exact hl
    · exact absurd hl h'
  · intro q' h h'
    have := ht q' h
    subst this
    exact ⟨_, hown, Seen.new rfl⟩
  · exact fun q' h => absurd h (hn q' true)

/-- one owner less -/
theorem good_remove {x : Var} {q : Nat} {b : Bool} (ho : Spec.owns s' = Function.update (Spec.owns s) (.var e.tid x) 0)
    (hx : Spec.owns s (.var e.tid x) = q) (hh : s'.holder = s.holder) (hl : e.lab = .dec q b)
    (hb : b = true → ∀ p, Spec.owns s p = q → p = .var e.tid x) : Good es s e s' := by
  have hu : e.lab ≠ .unlock := by rw [hl]; simp
  have ht : ∀ q', e.lab.touches q' → q' = q := by
    intro q' h
    rw [hl] at h
    rcases h with h | h | h | ⟨b, h⟩ <;> cases h
    rfl
  constructor
  · exact fun i h => h.mono hh hu
  · intro p' q' hq' hp'
    by_cases hp : p' = .var e.tid x
    · subst hp
      rw [ho, Function.update_self] at hp'
      exact absurd hp'.symm hq'
    · rw [ho, Function.update_of_ne hp] at hp'
      exact Or.inl ⟨p', hp', fun i h => h.mono hh hu⟩
  · intro p q' hq' hp
    by_cases h1 : p = .var e.tid x
    · subst h1
      rw [hx] at hp
      subst hp
      exact Or.inr ⟨b, hl, fun i h => h⟩
    · exact Or.inl ⟨p, by rw [ho, Function.update_of_ne h1]; exact hp, fun i h => h.mono hh hu⟩
  · intro w b h; rw [hl] at h; cases h
  · intro q' h; rw [hl] at h; cases h
  · intro q' h h'
    have := ht q' h
    subst this
    exact ⟨_, hx, fun i h => h⟩
  · intro q' h h'
    have := ht q' h
    subst this
    exact absurd hl (h' b)
  · intro q' h p hp i hk
    rw [hl] at h
    cases h
    have := hb rfl p hp
    subst this
    exact hk

theorem not_touches_none {q : Nat} : ¬ Lab.none.touches q := by rintro (h | h | h | ⟨b, h⟩) <;> cases h

theorem good_act {f : Op} {t : Nat} {K : Know} {s s' : St} {z : Spec.Z} {φ : Phase Op Out} {a : Act} {r : a.Res} (hr : Rel t K s z φ)
    (hp : Pre f a K) (hx : Spec.Exact (Spec.owns s) s.count) (hd : Does t a s r s') : Good es s ⟨t, label t a s r⟩ s' := by
  have hold : K.cs ≠ none → s.holder = some t := by
    intro h
    obtain ⟨⟨p, q, v⟩, hcs⟩ := Option.ne_none_iff_exists'.mp h
    exact (hr.held _ _ _ hcs).1
  cases hd with
  | lock _ h =>
    refine good_lock (by funext p; cases p <;> rfl) (Or.inl rfl) fun i hk => ?_
    rw [knows_held rfl]
    simp only [Knows, h] at hk
    obtain ⟨u, h1, h2, h3⟩ := hk
    refine .of_hb rfl (h3.mono.hb (.sync (.lock h1.lt rfl rfl h1.mono (is_new.mpr rfl) ?_)))
    exact fun k h4 h5 h6 => h2 k h4 ((is_old h5).mp h6)
  | unlock _ =>
    obtain ⟨p, q, hcs⟩ := hp
    refine good_lock (by funext p; cases p <;> rfl) (Or.inr rfl) fun i hk => ?_
    rw [knows_held (hold (by simp [hcs]))] at hk
    refine ⟨es.length, is_new.mpr rfl, ?_, Or.inr (hk.hb rfl)⟩
    intro k h1 h2
    have := h2.lt
    simp only [List.length_append, List.length_singleton] at this
    omega
  | rdPtr _ => exact good_quiet rfl rfl (by simp [label]) (fun _ _ _ => hold hp) (by rintro q (h | h | h | ⟨b, h⟩) <;> cases h)
  | rdCtl _ => exact good_quiet rfl rfl (by simp [label]) (fun _ _ _ => hold hp) (by rintro q (h | h | h | ⟨b, h⟩) <;> cases h)
  | wrPtr _ x =>
    exact good_quiet (by funext p; cases p <;> rfl) rfl (by simp [label]) (fun _ _ _ => hold hp) (by rintro q (h | h | h | ⟨b, h⟩) <;> cases h)
  | wrCtl _ x p q =>
    obtain ⟨p', v, hcs⟩ := hp
    obtain ⟨h1, h2, h3, h4⟩ := hr.held _ _ _ hcs
    refine good_swap (a := .storage) (b := .var t x) ?_ rfl (by simp [label]) (fun _ _ _ => h1) (by rintro q (h | h | h | ⟨b, h⟩) <;> cases h)
      (fun i hk => ?_) fun i hk => ?_
    · rw [owns_set]
      have : Spec.owns { s with mc := (s.cells t x).ctl } = Function.update (Spec.owns s) .storage (s.cells t x).ctl := by
        funext p; cases p <;> simp [Spec.owns]
      rw [this]
      simp [Spec.owns, h3]
    · rw [knows_held h1] at hk
      exact Seen.mono hk
    · rw [knows_held (t := t) (by simp [St.set, h1])]
      exact Seen.mono hk
  | rd _ x => exact good_quiet rfl rfl (by simp [label]) (by simp [label]) fun q h => absurd h not_touches_none
  | deref _ x =>
    refine good_quiet rfl rfl (by simp [label]) (by simp [label]) ?_
    rintro q (h | h | h | ⟨b, h⟩) <;> cases h
    exact ⟨rfl, x, rfl⟩
  | acquire _ x p q =>
    obtain ⟨h1, h2⟩ := hp
    have hx0 : Spec.owns s (.var t x) = 0 := by simp [Spec.owns, hr.cells, h1, null]
    have ho : Spec.owns ((s.inc q).set t x ⟨p, q⟩) = Function.update (Spec.owns s) (.var t x) q := by rw [owns_set, owns_inc]
    have hh : ((s.inc q).set t x ⟨p, q⟩).holder = s.holder := (s.inc_frame q).2.1
    by_cases hq : q = 0
    · subst hq
      simp only [label, if_true]
      refine good_quiet ?_ hh (by simp) (by simp) fun q h => absurd h not_touches_none
      rw [ho, ← hx0]
      exact Function.update_eq_self _ _
    · simp only [label, if_neg hq]
      refine good_add ho hx0 hh (Or.inl ⟨rfl, ?_⟩)
      rcases h2 with ⟨y, hy⟩ | ⟨p', v, hcs⟩
      · exact ⟨.var t y, by simp [Spec.owns, hr.cells, hy], fun i h => h⟩
      · obtain ⟨h3, -, h4, -⟩ := hr.held _ _ _ hcs
        exact ⟨.storage, h4, fun i h => by rwa [knows_held h3] at h⟩
  | make _ x v hq h =>
    refine good_add (x := x) (q := v.ctl) (by rw [owns_set, owns_inc]) ?_ (s.inc_frame v.ctl).2.1 (Or.inr ⟨rfl, fun p hp => ?_⟩)
    · have : K.cells x = null := hp
      simp [Spec.owns, hr.cells, this, null]
    · have := Exact.pos hx (a := p) (by rw [hp]; exact hq)
      rw [hp] at this
      omega
  | release _ x =>
    have ho : Spec.owns ((s.dec t (s.cells t x).ctl).set t x null) = Function.update (Spec.owns s) (.var t x) 0 := by rw [owns_set, owns_dec]; rfl
    have hh : ((s.dec t (s.cells t x).ctl).set t x null).holder = s.holder := (s.dec_frame t _).2.1
    by_cases hq : (s.cells t x).ctl = 0
    · simp only [label, if_pos hq]
      refine good_quiet ?_ hh (by simp) (by simp) fun q h => absurd h not_touches_none
      rw [ho]
      have : Spec.owns s (.var t x) = 0 := hq
      rw [← this]
      exact Function.update_eq_self _ _
    · simp only [label, if_neg hq]
      refine good_remove (x := x) ho rfl hh rfl fun hb p hp => ?_
      obtain ⟨l, h1, h2, h3⟩ := hx _ hq
      rw [of_decide_eq_true hb] at h3
      have m1 := (h2 p).mpr hp
      have m2 := (h2 (.var t x)).mpr rfl
      match l, h3, m1, m2 with
      | [a], _, m1, m2 =>
        simp only [List.mem_singleton] at m1 m2
        rw [m1, m2]
  | move _ d x =>
    obtain ⟨h1, h2⟩ := hp
    refine good_swap (a := .var t d) (b := .var t x) ?_ rfl (by simp [label]) (by simp [label]) (fun q => not_touches_none)
      (fun i hk => Seen.mono hk) fun i hk => Seen.mono hk
    rw [owns_set, owns_set]
    simp [Spec.owns, hr.cells, h1, null]
  | swap _ a b =>
    refine good_swap (a := .var t a) (b := .var t b) ?_ rfl (by simp [label]) (by simp [label]) (fun q => not_touches_none)
      (fun i hk => Seen.mono hk) fun i hk => Seen.mono hk
    rw [owns_set, owns_set]
    simp [Spec.owns]
  | xchg _ x b =>
    refine good_swap (a := .slot b) (b := .var t x) ?_ rfl (by simp [label]) (by simp [label]) (by rintro q (h | h | h | ⟨b, h⟩) <;> cases h)
      (fun i hk => ?_) fun i hk => ?_
    · rw [owns_set]
      have : Spec.owns { s with box := Function.update s.box b (s.cells t x) } = Function.update (Spec.owns s) (.slot b) (s.cells t x).ctl := by
        funext p
        cases p with
        | slot b' =>
          by_cases e : b' = b
          · subst e; simp [Spec.owns]
          · simp [Spec.owns, e]
        | _ => simp [Spec.owns]
      rw [this]
      simp [Spec.owns]
    · obtain ⟨k, h1, h2⟩ := hk
      exact Seen.of_hb rfl (h2.mono.hb (.sync (.slot h1.lt b h1.mono (is_new.mpr rfl))))
    · exact ⟨es.length, is_new.mpr rfl, Or.inr (Seen.hb hk rfl)⟩

theorem run_inv {v₀ : SP} {c : Config Act Act.Res St Op Out} (h : Run v₀ es c) : Inv es c.shared := by
  induction h with
  | start => exact inv_start _
  | inv h t f ht ih => exact ih.step (good_quiet rfl rfl (by simp) (by simp) (by rintro q (h | h | h | ⟨b, h⟩) <;> cases h))
  | ret h t f y ht ih => exact ih.step (good_quiet rfl rfl (by simp) (by simp) (by rintro q (h | h | h | ⟨b, h⟩) <;> cases h))
  | act h t f a k r s' ht hd ih =>
    obtain ⟨tr, he⟩ := run_exec h
    obtain ⟨z, ph, hj⟩ := invariant he
    obtain ⟨K, hr, hpre, -⟩ := hj.run t f _ ht
    exact ih.step (good_act hr hpre hj.exact_ hd)

end Itlib.ASptr
