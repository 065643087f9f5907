import Verif.Props.Serde
import Mathlib.Logic.Relation
/-!
# Specification: checkpoints

A long job processes a list of calls. It writes its histogram to a file from time to time, with the number of calls made so far. At any moment the job may be killed; it is then started again: it
reads the file and goes on after the calls that the file includes. (The two are written together and replace the old file at once, as by renaming a temporary file.)
-/
namespace NdHist

/-- what is in memory and what is in the file -/
structure Job (H : Type) where
  /-- the histogram in memory -/
  mem : H
  /-- how many of the calls have been made -/
  pos : Nat
  /-- what the file holds: the histogram as written, … -/
  file : SVal
  /-- … and how many of the calls had been made -/
  filePos : Nat

/-- what may happen next -/
inductive Job.Step {H : Type} [Serde H] {C : Type u} (call : H → C → H) (calls : List C) : Job H → Job H → Prop where
  /-- the next call is made -/
  | call (j : Job H) (c : C) : calls[j.pos]? = some c → Job.Step call calls j { j with mem := call j.mem c, pos := j.pos + 1 }
  /-- the histogram is written -/
  | save (j : Job H) (v : SVal) : Serde.ser j.mem v → Job.Step call calls j { j with file := v, filePos := j.pos }
  /-- the job is killed and started again from the file -/
  | restart (j : Job H) (h : H) : Serde.de j.file = some h → Job.Step call calls j { j with mem := h, pos := j.filePos }

/-- any number of such steps -/
def Job.Run {H : Type} [Serde H] {C : Type u} (call : H → C → H) (calls : List C) : Job H → Job H → Prop := Relation.ReflTransGen (Job.Step call calls)

/-- An axis that can be written and read any number of times: it can be written, whatever is written is read back as an axis no caller can tell apart from it, and the same holds of what was read
back, and so on. -/
def RoundTripsForever [Cfg] {A : Type} [Axis A] [PEq A] [Serde A] (a : A) : Prop :=
  ∃ P : A → Prop, P a ∧ ∀ b, P b → (∃ v, Serde.ser b v) ∧ ∀ v, Serde.ser b v → ∃ c, Serde.de v = some c ∧ P c ∧ Indist b c

/-- two dense histograms with the same bin values and axes no caller can tell apart -/
structure IndistVec [Cfg] {A V : Type} [Axis A] [PEq A] (h h' : VecHistogram A V) : Prop where
  axes : Indist h.axes h'.axes
  values : h'.values = h.values

/-- the same for sparse histograms (which have no order of the bins) -/
structure IndistHash [Cfg] {A V : Type} [Axis A] [PEq A] (h h' : HashHistogram A V) : Prop where
  axes : Indist h.axes h'.axes
  values : ∀ i, h'.valueAtIndex i = h.valueAtIndex i
end NdHist
