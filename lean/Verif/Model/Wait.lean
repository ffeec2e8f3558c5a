/-
gbinder_servicemanager_wait (src/gbinder_servicemanager.c).

The calls are recorded in the log, the outcome of a ping may depend on everything that has happened
before, in particular on how much time has been spent. What else happens if the service manager is
found to be there, is in Model/Manager.lean.
-/
set_option autoImplicit false

namespace Gb.Wait

/-- What gbinder_servicemanager.c:739-782 does. -/
inductive Ev
  /-- gbinder_servicemanager.c:429-440 `gbinder_servicemanager_sleep_ms`. Simplified: nanosleep is
  called again with whatever remains if it's interrupted by a signal, which adds up to a single sleep. -/
  | sleep (ms : Int)
  /-- gbinder_remote_object.c:96-124: gbinder_remote_object_reanimate of a dead object pings it and
  returns TRUE if the ping is successful. -/
  | ping (ok : Bool)
  deriving DecidableEq, Repr

/-- Everything gbinder_servicemanager.c:739-782 has done so far. -/
abbrev Log := List Ev

/-- gbinder_servicemanager.c:96 PRESENSE_WAIT_MS_MIN -/
def waitMin : Int := 100
/-- gbinder_servicemanager.c:97 PRESENSE_WAIT_MS_MAX -/
def waitMax : Int := 1000
/-- gbinder_servicemanager.c:98 PRESENSE_WAIT_MS_STEP -/
def waitStep : Int := 100

/-- gbinder_servicemanager.c:757-764: how long to sleep, and what's left. -/
def slice (max delay : Int) : Int × Int :=
  if max > 0 then
    if max < delay then (max, 0) else (delay, max - delay)
  else (delay, max)

/-- gbinder_servicemanager.c:770-775 -/
def next (delay : Int) : Int :=
  if delay < waitMax then
    if delay + waitStep > waitMax then waitMax else delay + waitStep
  else delay

/-- gbinder_servicemanager.c:756-776, the loop; `none` if `fuel` runs out. -/
def loop (ping : Log → Bool) : Nat → Int → Int → Log → Option (Bool × Log)
  | 0, _, _, _ => none
  | fuel + 1, max, delay, log =>
    if max = 0 then some (false, log)
    else
      let (d, max) := slice max delay
      let log := log ++ [.sleep d]
      if ping log then some (true, log ++ [.ping true])
      else loop ping fuel max (next d) (log ++ [.ping false])

/-- gbinder_servicemanager.c:739-782 `gbinder_servicemanager_wait` -/
def wait (ping : Log → Bool) (fuel : Nat) (dead : Bool) (max : Int) : Option (Bool × Log) :=
  if !dead then some (true, [])
  else if ping [] then some (true, [.ping true])
  else if max ≠ 0 then loop ping fuel max waitMin [.ping false]
  else some (false, [.ping false])

end Gb.Wait
