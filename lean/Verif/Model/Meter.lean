/-!
# Model of `Meter` and `MeterArray`

Transcribes `/repo/src/bm_sim/meters.cpp` and `/repo/include/bm/bm_sim/meters.h`.

Rates are `double` in the code.  Here they are values of an arbitrary type `R` with a function `acc`
giving the number of tokens a rate has accrued after so many microseconds (the product and
truncation at `/repo/src/bm_sim/meters.cpp:75-76`) and a comparison.  Theorems that need it assume
that `acc` is monotone in the time, which holds for floating-point multiplication by a non-negative
constant followed by truncation.  `size_t` arithmetic wraps modulo 2^64 as in the code.

Left out: `reset_time_origin` (called by tests only), the member `valid` (written, never read),
locking, logging.
-/

namespace Bm.Meter

/-- Arithmetic on rates.  `acc r t`: tokens accrued at rate `r` after `t` microseconds
(`/repo/src/bm_sim/meters.cpp:75-76`); `gt`: the comparison at `/repo/src/bm_sim/meters.cpp:37`. -/
structure RateArith (R : Type) where
  acc : R → Nat → Nat
  gt : R → R → Bool

/-- `rate_config_t`.  `/repo/include/bm/bm_sim/meters.h:67-74`. -/
structure Config (R : Type) where
  infoRate : R
  burst : Nat
deriving DecidableEq

/-- `MeterRate`.  `/repo/include/bm/bm_sim/meters.h:168-175`. -/
structure Rate (R : Type) where
  infoRate : R
  burst : Nat := 0
  tokens : Nat := 0
  last : Nat := 0
  color : Nat := 0
deriving DecidableEq

/-- `MeterErrorCode`, the values returned by the functions below.
`/repo/include/bm/bm_sim/meters.h:83-91`. -/
inductive Code
  | success | badRatesList | invalidInfoRate
deriving DecidableEq, Repr

/-- `class Meter`, data members (times in nanoseconds).
`/repo/include/bm/bm_sim/meters.h:181-189`. -/
structure Meter (R : Type) where
  packets : Bool
  rates : List (Rate R)
  configured : Bool := false
  timeInit : Nat
deriving DecidableEq

variable {R : Type}

/-- The fields `set_rate` assigns.  `/repo/src/bm_sim/meters.cpp:29-34`. -/
def Config.toRate (c : Config R) (idx : Nat) : Rate R :=
  { infoRate := c.infoRate, burst := c.burst, tokens := c.burst, last := 0, color := idx + 1 }

/-- `set_rate`.  `/repo/src/bm_sim/meters.cpp:26-40`.  `none`: `idx` out of range. -/
def setRate (A : RateArith R) (rates : List (Rate R)) (idx : Nat) (c : Config R) :
    Option (Code × List (Rate R)) :=
  if idx < rates.length then
    let rates' := rates.set idx (c.toRate idx)
    match idx with
    | 0 => some (.success, rates')
    | i + 1 =>
      match rates'[i]? with
      | none => none
      | some prev =>
        if A.gt prev.infoRate c.infoRate then some (.invalidInfoRate, rates')
        else some (.success, rates')
  else none

/-- The loop of `set_rates`: stops at the first error, keeping the assignments done so far.
`/repo/include/bm/bm_sim/meters.h:118-122`. -/
def setLoop (A : RateArith R) : List (Config R) → Nat → List (Rate R) →
    Option (Code × List (Rate R))
  | [], _, rates => some (.success, rates)
  | c :: cs, idx, rates => do
    let (rc, rates') ← setRate A rates idx c
    if rc = .success then setLoop A cs (idx + 1) rates' else some (rc, rates')

/-- `Meter::set_rates`.  `/repo/include/bm/bm_sim/meters.h:102-126`. -/
def setRates (A : RateArith R) (m : Meter R) (cs : List (Config R)) : Option (Code × Meter R) := do
  if cs.length ≠ m.rates.length then return (.badRatesList, m)
  let (rc, rates) ← setLoop A cs 0 m.rates
  if rc = .success then return (.success, { m with rates := rates.reverse, configured := true })
  else return (rc, { m with rates := rates })

/-- `Meter::reset_rates`.  `/repo/src/bm_sim/meters.cpp:42-50`. -/
def resetRates (m : Meter R) : Meter R := { m with configured := false }

/-- The loop of `Meter::execute`: the computed colour and the updated rates.  `none`: the cast to
`uint64_t` is undefined or the assertion fails.  `/repo/src/bm_sim/meters.cpp:74-90`. -/
def execRates (A : RateArith R) (micros input : Nat) : List (Rate R) → Option (Nat × List (Rate R))
  | [] => some (0, [])
  | r :: rs =>
    let since := A.acc r.infoRate micros
    if since ≥ 2 ^ 64 then none
    else if since < r.last then none
    else
      let tokens := min ((r.tokens + (since - r.last)) % 2 ^ 64) r.burst
      if tokens < input then some (r.color, { r with tokens := tokens, last := since } :: rs)
      else do
        let (c, rs') ← execRates A micros input rs
        return (c, { r with tokens := tokens - input, last := since } :: rs')

/-- `Meter::execute`.  `/repo/src/bm_sim/meters.cpp:57-93`.  `now` in nanoseconds, `len` the ingress
length of the packet.  A time before `time_init` would cast a negative number: `none`. -/
def execute (A : RateArith R) (m : Meter R) (now len pre : Nat) : Option (Nat × Meter R) :=
  if !m.configured then some (0, m)
  else if now < m.timeInit then none
  else do
    let input := if m.packets then 1 else len
    let (c, rates) ← execRates A ((now - m.timeInit) / 1000) input m.rates
    return (max pre c, { m with rates := rates })

/-- `Meter::get_rates`.  `/repo/src/bm_sim/meters.cpp:125-135`. -/
def getRates (m : Meter R) : List (Config R) :=
  if !m.configured then [] else (m.rates.map fun r => ⟨r.infoRate, r.burst⟩).reverse

/-- What `Meter::serialize` writes: nothing but the flag for an unconfigured meter, otherwise rate
and burst size in storage order; `print` is what reading back a printed rate gives (the stream
prints 6 significant digits).  `/repo/src/bm_sim/meters.cpp:95-103`. -/
def serialize (print : R → R) (m : Meter R) : Option (List (Config R)) :=
  if m.configured then some (m.rates.map fun r => ⟨print r.infoRate, r.burst⟩) else none

/-- The loop of `Meter::deserialize`; return codes of `set_rate` are ignored.
`/repo/src/bm_sim/meters.cpp:110-115`.  `none` also when the saved form has fewer rates than the
meter (the reads then fail; outside the model). -/
def deserLoop (A : RateArith R) : Nat → Nat → List (Config R) → List (Rate R) →
    Option (List (Rate R))
  | 0, _, _, rates => some rates
  | _ + 1, _, [], _ => none
  | n + 1, i, c :: cs, rates => do
    let (_, rates') ← setRate A rates i c
    deserLoop A n (i + 1) cs rates'

/-- `Meter::deserialize`.  `/repo/src/bm_sim/meters.cpp:105-117`. -/
def deserialize (A : RateArith R) (m : Meter R) : Option (List (Config R)) → Option (Meter R)
  | none => some { m with configured := false }
  | some cs => do
    let rates ← deserLoop A m.rates.length 0 cs m.rates
    return { m with configured := true, rates := rates }

/-- A new meter.  `/repo/include/bm/bm_sim/meters.h:94-95`.  `zero` is the initial `info_rate`. -/
def fresh (zero : R) (packets : Bool) (rateCount now : Nat) : Meter R :=
  { packets := packets, rates := List.replicate rateCount { infoRate := zero }, timeInit := now }

/-- `MeterArray::set_rates`.  `/repo/include/bm/bm_sim/meters.h:223-232`. -/
def arraySetRates (A : RateArith R) : List (Meter R) → List (Config R) →
    Option (Code × List (Meter R))
  | [], _ => some (.success, [])
  | m :: ms, cs => do
    let (rc, m') ← setRates A m cs
    if rc = .success then
      let (rc', ms') ← arraySetRates A ms cs
      return (rc', m' :: ms')
    else return (rc, m' :: ms)

/-- `MeterArray::execute_meter`.  `/repo/src/bm_sim/meters.cpp:146-150`.  `none`: index out of
range (`operator[]` of the vector). -/
def arrayExecute (A : RateArith R) (ms : List (Meter R)) (idx now len pre : Nat) :
    Option (Nat × List (Meter R)) := do
  let m ← ms[idx]?
  let (c, m') ← execute A m now len pre
  return (c, ms.set idx m')

/-- `MeterArray::reset_state`.  `/repo/src/bm_sim/meters.cpp:162-165`. -/
def arrayReset (ms : List (Meter R)) : List (Meter R) := ms.map resetRates

end Bm.Meter
