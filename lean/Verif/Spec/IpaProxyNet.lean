import Verif.IpaProxyNet
/-!
# What the user of the proxy expects of addresses and ports
-/
namespace Verif.IpaProxy.Net

/-- instance `i` was created by the command `instance NAME (bind|connect) ADDR tcp port PORT`, after some commands `pre` (identities are
numbers in the order of creation) -/
def CreatedBy (ops : List NOp) (i : Inst) (addr : List Byte) (port : Int) : Prop :=
  ∃ pre post name valid nw, ops = pre ++ .instAdd name i.bind addr valid port :: post ∧ run init pre = .ok nw ∧
    i.id = nw.w.next ∧ i.name = name.take 15 ∧ ∀ j ∈ nw.w.insts, j.name.take 16 ≠ name.take 16

/-- a socket is at an address and port as they were given -/
def AsGiven (s : Sock) (addr : List Byte) (port : Int) : Prop := s.addr = addr ∧ (s.port : Int) = port

/-- a TCP port -/
def IsPort (port : Int) : Prop := 0 ≤ port ∧ port < 65536

/-- the text "0.0.0.0": any address -/
def everywhere : List Byte := "0.0.0.0".toList.map (fun c => BitVec.ofNat 8 c.toNat)

end Verif.IpaProxy.Net
