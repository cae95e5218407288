/-!
# Shared basics

How the Rust outcomes are represented.
-/

universe u

namespace QM

/-- The two ways a Rust call can fail to produce a value: a panic (`assert!`, slice index out of
range, `unwrap` on `None`, ...) or a returned `Err(qm::Error)` (`src/core/qm.rs`). The text of an
error is not modelled. -/
inductive Fault where
  | panic
  | err
  deriving DecidableEq, Repr

/-- Outcome of a Rust call. -/
abbrev Outcome (α : Type u) := Except Fault α

deriving instance DecidableEq for Except

end QM
