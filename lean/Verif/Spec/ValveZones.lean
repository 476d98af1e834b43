/-!
# Where a proportional valve should go

Written from the comments in the motor driver ("makes ends 'sticky'", "provide some hysteresis", "leave valve as is if close
enough"), without reference to the model.
-/
namespace OTR.Spec

/-- Which way the motor is to be run (`true`: opening), if at all, for a valve believed to be `c`% open with target `t`% and
position precision `p`%. The end zones are `w = max 11 (2p)` wide. A target in the outer part of an end zone (within `w - p` of the
end) means "all the way"; a target in the inner part means "stay at the end stop if already there". Everywhere else the motor is run
towards the target unless the valve is already within `p` of it. -/
def valveRun (t c p : Nat) : Option Bool :=
  let w := max 11 (2 * p)
  if t + w ≥ 100 + p then (if c = 100 then none else some true)
  else if t + p ≤ w then (if c = 0 then none else some false)
  else if t + w ≥ 100 ∧ c = 100 then none
  else if t ≤ w ∧ c = 0 then none
  else if c ≤ t + p ∧ t ≤ c + p then none
  else some (decide (c < t))

end OTR.Spec
