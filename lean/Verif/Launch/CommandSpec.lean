import Verif.Launch.Command
import Verif.Launch.Spec

/-!
# What is meant by the arguments of the command line program

Specification of checkpoints and summaries, of hosts and of ports on the command line, which does not refer to the splitting of texts.
-/

namespace Verif.Launch

/-- Comma-separated. -/
def join : List Text → Text
  | [] => []
  | [t] => t
  | t :: ts => t ++ ',' :: join ts

/-- A text without or with one comma, as documented for checkpoints and summaries, and what is meant. -/
inductive Given : Option Text → Option Conf → Prop
  | absent : Given none none
  | directory (d : Text) : ',' ∉ d → Given (some d) (some (.path d))
  | named (d f : Text) : ',' ∉ d → ',' ∉ f → Given (some (d ++ ',' :: f)) (some (.named d f))

/-- Hosts and ports: single values or comma-separated lists. -/
inductive Hosts : Option Text → Each Text → Prop
  | absent : Hosts none .none
  | one (h : Text) : ',' ∉ h → Hosts (some h) (.one h)
  | many (hs : List Text) : 2 ≤ hs.length → (∀ h ∈ hs, ',' ∉ h) → Hosts (some (join hs)) (.many hs)

inductive Ports (int : Text → Option Int) : Option Text → Each Int → Prop
  | absent : Ports int none .none
  | one (t : Text) (p : Int) : ',' ∉ t → int t = some p → Ports int (some t) (.one p)
  | many (ts : List Text) (ps : List Int) : 2 ≤ ts.length → (∀ t ∈ ts, ',' ∉ t) → ts.map int = ps.map some → Ports int (some (join ts)) (.many ps)

end Verif.Launch
