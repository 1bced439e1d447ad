import Verif.Model.Pre

/-!
# Model of the port lists of PI for the replication engine

`convert_map` makes a string of `0` and `1` (here a list of truth values) from a list of ports, which
`std::bitset<512>` reads.  The types of PI are not in the repository: ports are taken to be numbers for which `port + 1`
does not overflow.
-/

namespace Bm.PiMc

open Bm.Pre

/-- `std::string::resize(n, '0')`. -/
def resize (s : List Bool) (n : Nat) : List Bool := s.take n ++ List.replicate (n - s.length) false

/-- The body of the loop.  `/repo/PI/src/pi_mc_imp.cpp:67-68`. -/
def mark (s : List Bool) (port : Nat) : List Bool := (resize s (port + 1)).set port true

/-- `std::bitset<512>(str)`: the first 512 characters are used, the last one of them is bit 0.
`/repo/include/bm/bm_sim/pre.h:32-33`. -/
def bitset (str : List Bool) : PortSet := (BitVec.ofBoolListLE (str.take 512).reverse).setWidth 512

/-- `convert_map`.  `/repo/PI/src/pi_mc_imp.cpp:63-72`. -/
def convertMap (ports : List Nat) : PortSet := bitset (ports.foldl mark []).reverse

/-- `_pi_mc_node_create`.  `/repo/PI/src/pi_mc_imp.cpp:123-145`. -/
def nodeCreate (s : State) (rid : Nat) (ports : List Nat) : Option (Code × Nat × State) :=
  Pre.nodeCreate s rid (convertMap ports)

/-- `_pi_mc_node_modify`.  `/repo/PI/src/pi_mc_imp.cpp:147-162`. -/
def nodeModify (s : State) (l1 : Nat) (ports : List Nat) : Option (Code × State) :=
  Pre.nodeUpdate s l1 (convertMap ports)

end Bm.PiMc
