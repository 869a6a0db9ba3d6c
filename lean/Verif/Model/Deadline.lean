import Verif.Model.Text

/-!
# Command deadlines

Models `BedrockCommand::_getTimeout`, `BedrockCommand::setTimeout` (BedrockCommand.cpp:49-64,
415-421), `BedrockCore::getRemainingTime`, `decreaseCommandTimeout` (BedrockCore.cpp:35-61,
478-487), `SData::calc` / `calc64` (SData.cpp:76-90) and the `timeout` header written when a
command is sent to another node (SQLiteClusterMessenger.cpp:138-143).

Clock readings (`STimeNow()`, microseconds) are inputs, one per reading.  All C++ conversions are
modelled: `int` is 32 bits, `long` and `int64_t` 64 bits two's complement, `uint64_t` wraps.
-/

namespace Bedrock.Deadline
open Bedrock.Text

/-- Conversion to `int64_t`. -/
def toI64 (x : Int) : Int := (x + 9223372036854775808) % 18446744073709551616 - 9223372036854775808
/-- Conversion to `uint64_t`. -/
def toU64 (x : Int) : Int := x % 18446744073709551616

/-- The headers of a request that the deadline depends on; `none` means not set
(`SData::isSet`). -/
structure Req where
  /-- `timeout`, milliseconds -/
  timeout : Option Bytes := none
  /-- `processTimeout`, milliseconds -/
  processTimeout : Option Bytes := none
  /-- `commandExecuteTime`, microseconds since the epoch -/
  executeTime : Option Bytes := none
  /-- `connection: forget` (any case) -/
  forget : Bool := false
deriving DecidableEq, Repr

/-- `SData::calc` (SData.cpp:76-79) of a header that is set: the 64 bit value capped at
`0x7fffffff`, then converted to `int`. -/
def calcInt (v : Bytes) : Int := toInt32 (min (strtoll v) 2147483647)

/-- `scheduledTime` (BedrockCommand.cpp:26), a `uint64_t`; `now` is the clock when the command
object is built. -/
def scheduled (r : Req) (now : Int) : Int :=
  match r.executeTime with
  | some v => toU64 (strtoll v)
  | none => now

/-- The requested timeout in milliseconds (BedrockCommand.cpp:52-57): the header, else an hour
for `connection: forget`, else 110 seconds (BedrockCommand.h:39-40). -/
def timeoutMs (r : Req) : Int :=
  match r.timeout with
  | some v => calcInt v
  | none => if r.forget then 3600000 else 110000

/-- `_getTimeout` (BedrockCommand.cpp:49-64) stored into the `uint64_t` `_timeout`: the sum is
computed in `uint64_t`. -/
def deadline (r : Req) (now : Int) : Int :=
  toU64 (toI64 (toU64 (toU64 (timeoutMs r * 1000) + scheduled r now)))

/-- `DEFAULT_PROCESS_TIMEOUT` or the `processTimeout` header, in microseconds
(BedrockCore.cpp:43-47). -/
def processUs (r : Req) : Int :=
  (match r.processTimeout with
   | some v => calcInt v
   | none => 5000) * 1000

/-- `BedrockCore::getRemainingTime` (BedrockCore.cpp:35-61); `none` is `STHROW("555 Timeout")`. -/
def remaining (r : Req) (deadline now : Int) (isProcessing : Bool) : Option Int :=
  let adjusted := toI64 (toI64 deadline - toI64 now)
  if adjusted ≤ 0 ∨ (isProcessing = true ∧ processUs r ≤ 0) then none
  else some (if isProcessing then min (processUs r) adjusted else adjusted)

/-- `BedrockCommand::setTimeout` (BedrockCommand.cpp:415-421) at clock reading `now`. -/
def setTimeout (ms now : Int) : Int := toU64 (toU64 (ms * 1000) + now)

/-- `BedrockCore::decreaseCommandTimeout` (BedrockCore.cpp:478-487).  `t1` is the clock read by the
first `getRemainingTime`, `t2` the one read by `setTimeout`.  The result is the new deadline, `none`
if the first `getRemainingTime` throws 555.  (The second `getRemainingTime` only computes the
database time limit; see `Command.decrease`.) -/
def decrease (r : Req) (deadline ms t1 t2 : Int) : Option Int :=
  match remaining r deadline t1 false with
  | none => none
  | some rem => some (if ms * 1000 < rem then setTimeout ms t2 else deadline)

/-- The request as another node receives it: `_sendCommandOnSocket` replaces the `timeout` header
by the milliseconds left, computed in `uint64_t` (SQLiteClusterMessenger.cpp:143).  The other
headers are copied, `commandExecuteTime` included. -/
def forwarded (r : Req) (deadline now : Int) : Req :=
  { r with timeout := some (natDec (toU64 (deadline - now) / 1000).toNat) }

end Bedrock.Deadline
