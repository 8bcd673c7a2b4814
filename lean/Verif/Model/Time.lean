import Verif.Model.Exc
/-! # Timestamps and settings -/

namespace Verif

/-- `settings.MIN_TIMESTAMP` (2010-01-01), `settings.py:9`. -/
def minTimestamp : Nat := 1262304000

/-- `settings.MAX_TIMESTAMP` (3010-01-01), `settings.py:10`. -/
def maxTimestamp : Nat := 32819212800

/-- `settings.MSG_TTL` in seconds, `settings.py:5`. -/
def msgTtl : Int := 600

/-- `settings.FUTURE_TIME_TOLERANCE` in seconds, `settings.py:6`. -/
def futureTolerance : Int := 300

/-- `settings.PAYMENT_TIMESTAMP_TOLERANCE` in seconds, `settings.py:7`. -/
def paymentTolerance : Int := 900

/-- `verify_time(timestamp)` (`message/base.py:28-53`) for an integer timestamp (in
seconds); `nowUs` is `datetime.utcnow()` in microseconds since the epoch.
`utcfromtimestamp` refuses timestamps outside the years 1..9999. -/
def verifyTime (nowUs : Int) (ts : Int) : Res Unit :=
  if ts < -62135596800 || 253402300799 < ts then .error .timestampError
  else if nowUs - ts * 1000000 > msgTtl * 1000000 then .error .messageTooOld
  else if ts * 1000000 - nowUs > futureTolerance * 1000000 then .error .messageFromFuture
  else .ok ()

end Verif
