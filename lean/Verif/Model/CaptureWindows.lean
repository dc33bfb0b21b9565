import Verif.Model.Capture
/-
The MSVC branch of `LogCapture::capturef`, /repo/src/logcapture.cpp:79-113.
-/
namespace G3

/-- `vsnprintf_s(buffer, size, _TRUNCATE, ...)`, /repo/src/logcapture.cpp:99: what is returned and the characters stored before the
terminator. `res` is the outcome of formatting as in `capturef`. With `_TRUNCATE` a text that does not fit is cut and -1 is returned. -/
def vsnprintf_s (size : Nat) (res : Option Str) : Int × Str :=
  match res with
  | none => (-1, [])
  | some t => (if t.length < size then (t.length : Int) else -1, t.take (size - 1))

/-- `LogCapture::capturef` on Windows, /repo/src/logcapture.cpp:79-113. `size` is the value of `MaxMessageSize` or `kMaxMessageSize`. A
negative size makes the vector throw; size 0 is an invalid parameter for `vsnprintf_s`. -/
def capturefWindows (size : Int) (fmt : Str) (res : Option Str) : Except CapErr Str :=
  if size < 0 then .error .lengthError
  else if size = 0 then .error .undefined
  else
    let (nbrcharacters, finished_message) := vsnprintf_s size.toNat res
    if nbrcharacters < 0 then
      .ok ("\n\tERROR LOG MSG NOTIFICATION: Failure to successfully parse the message".toList ++ (['"'] ++ fmt ++ ['"'] ++ ['\n']))
    else if nbrcharacters > size then .ok (cstr finished_message ++ truncatedText)
    else .ok (cstr finished_message)

end G3
