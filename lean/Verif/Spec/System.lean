import Verif.Model.System
import Verif.Spec.Router

/-! What the claims about the system reports talk about. -/

namespace Txstatsd.Spec
variable [Rounding]

/-- The words of a text between separators. -/
inductive Separated (sep : Char → Prop) : Str → List Str → Prop
  | blank (s) : (∀ c ∈ s, sep c) → Separated sep s []
  | word (pre w rest ws) : (∀ c ∈ pre, sep c) → w ≠ [] → (∀ c ∈ w, ¬ sep c) →
      (∀ c, rest.head? = some c → sep c) → Separated sep rest ws → Separated sep (pre ++ w ++ rest) (w :: ws)

/-- The labels reported from `/proc/meminfo`. -/
def memLabels : List Str :=
  [c!"MemTotal", c!"MemFree", c!"Buffers", c!"Cached", c!"SwapCached", c!"SwapTotal", c!"SwapFree"]

/-- The factor in a line of these words. -/
inductive Factor : List Str → ℤ → Prop
  | kilo (k n) : Factor [k, n, c!"kB"] 1024
  | mega (k n) : Factor [k, n, c!"mB"] 1048576
  | none (ws) : ws.length ≠ 3 → Factor ws 1

/-- A line of `/proc/meminfo` that reports `amount` bytes for `label`. -/
def MemLine (line label : Str) (amount : ℤ) : Prop :=
  label ∈ memLabels ∧ ∃ n rest z f, Separated (· = ' ') line ((label ++ c!":") :: n :: rest) ∧
    Factor ((label ++ c!":") :: n :: rest) f ∧ Port n z ∧ amount = z * f

/-- A line of `/proc/meminfo` that is not reported: empty, or about something else. -/
def OtherLine (line : Str) : Prop :=
  line = [] ∨ ∃ k rest, Separated (· = ' ') line (k :: rest) ∧ ∀ label ∈ memLabels, k ≠ label ++ c!":"

/-- A line of `/proc/meminfo` that cannot be read, and what it raises: blanks only, a label without a number, a unit other than the two,
something else for a number. -/
inductive MemFault : Str → PyErr → Prop
  | blank (line) : line ≠ [] → (∀ c ∈ line, c = ' ') → MemFault line .indexError
  | bare (line label) : label ∈ memLabels → Separated (· = ' ') line [label ++ c!":"] → MemFault line .indexError
  | unit (line label n u) : label ∈ memLabels → Separated (· = ' ') line [label ++ c!":", n, u] → u ≠ c!"kB" → u ≠ c!"mB" →
      MemFault line .keyError
  | number (line label n rest f) : label ∈ memLabels → Separated (· = ' ') line ((label ++ c!":") :: n :: rest) →
      Factor ((label ++ c!":") :: n :: rest) f → (∀ z, ¬ Port n z) → MemFault line .valueError

/-- Among `lines`, the last one with a property. -/
def LastWith {α β : Type} (P : α → β → Prop) (lines : List α) (v : β) : Prop :=
  ∃ a l b, lines = a ++ l :: b ∧ P l v ∧ ∀ l' ∈ b, ∀ v', ¬ P l' v'

/-- A line of `/proc/net/dev` about a device with its numbers. -/
def DeviceLine (line dev : Str) (nums : List ℤ) : Prop :=
  ∃ a b ws, line = a ++ ':' :: b ∧ ':' ∉ a ∧ ':' ∉ b ∧ Stripped a dev ∧
    Separated (fun c => isSpace c = true) b ws ∧ List.Forall₂ Port ws nums

/-- The number of a line in the named column. -/
def InColumn (columns : List Str) (nums : List ℤ) (column : Str) (v : ℤ) : Prop :=
  ∃ i : ℕ, columns[i]? = some column ∧ nums[i]? = some v

/-- A reported name of a device and the column it comes from. -/
inductive NetName : Str → Str → Prop
  | recvBytes : NetName c!".bytes.received" c!"recv_bytes"
  | sendBytes : NetName c!".bytes.sent" c!"send_bytes"
  | recvPackets : NetName c!".packets.received" c!"recv_packets"
  | sendPackets : NetName c!".packets.sent" c!"send_packets"

/-- The second line of `/proc/net/dev`, with the names of the columns in two parts after a bar. -/
def HeaderLine (header : Str) (columns : List Str) : Prop :=
  ∃ a r t rs ts, header = a ++ '|' :: (r ++ '|' :: t) ∧ '|' ∉ a ∧ '|' ∉ r ∧ '|' ∉ t ∧
    Separated (fun c => isSpace c = true) r rs ∧ Separated (fun c => isSpace c = true) t ts ∧
    columns = rs.map (c!"recv_" ++ ·) ++ ts.map (c!"send_" ++ ·)

/-- A line without a colon, or about a device with a number in each needed column. -/
def ReadableLine (columns : List Str) (line : Str) : Prop :=
  ':' ∉ line ∨ ∃ dev nums, DeviceLine line dev nums ∧ ∀ s c, NetName s c → ∃ v, InColumn columns nums c v

/-- A line of `/proc/net/dev` that cannot be read, and what it raises: two colons, a word that is no number, no number in a needed
column. -/
inductive NetFault (columns : List Str) : Str → PyErr → Prop
  | colons (line) : 2 ≤ line.count ':' → NetFault columns line .valueError
  | number (a b w ws) : ':' ∉ a → ':' ∉ b → Separated (fun c => isSpace c = true) b ws → w ∈ ws → (∀ z, ¬ Port w z) →
      NetFault columns (a ++ ':' :: b) .valueError
  | column (line dev nums s c) : DeviceLine line dev nums → NetName s c → (∀ v, ¬ InColumn columns nums c v) →
      NetFault columns line .keyError

/-- The lines of a `/proc/net/dev` that cannot be read, and the exception. -/
inductive NetError : List Str → PyErr → Prop
  | short (lines) : lines.length < 2 → NetError lines .indexError
  | header (first header rest) : header.count '|' ≠ 2 → NetError (first :: header :: rest) .valueError
  | line (first header columns a l b e) : HeaderLine header columns → (∀ l ∈ a, ReadableLine columns l) → NetFault columns l e →
      NetError (first :: header :: (a ++ l :: b)) e

/-- The integer reading of a key. -/
def intAt (d : Dict Num) (k : Str) : ℤ :=
  match d.find k with
  | some (.int z) => z
  | _ => 0

end Txstatsd.Spec
