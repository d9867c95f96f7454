import Batteries.Tactic.Init
import Batteries.Tactic.SeqFocus
import Mathlib.Tactic.SplitIfs
import Mathlib.Tactic.Convert

/-! Tactics used by the proofs. -/
