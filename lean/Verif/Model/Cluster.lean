import Verif.Spec.Cluster
/-
  `ZeroconfCluster`: /repo/src/ZeroconfCluster.cxx, and `Listener::GetProxyTo`,
  /repo/src/Listener.cxx:174-206.

  Keys (`std::string`) are numbers.  A node's rank for a client is a function
  of its data and the client's address (`UpdateRendezvousScore` stores it in the
  node before every use), so the comparison `RendezvousHashing::Node::Compare`
  of libcommon is a parameter: `less arch source a b`.
-/
namespace Lukko.Model
open Lukko.Spec (ClusterNode)

/-- ZeroconfCluster.hxx:32-50.  `memberMap` is sorted by key; an iterator in
`memberList` is represented by the key of its element. -/
structure ZcCluster where
  memberMap : List (Nat × ClusterNode) := []
  memberList : List Nat := []
  dirty : Bool := false
  deriving DecidableEq

/-- `std::map::try_emplace` followed by `Update`. -/
def mapPut (key : Nat) (n : ClusterNode) : List (Nat × ClusterNode) → List (Nat × ClusterNode)
  | [] => [(key, n)]
  | (k, m) :: rest =>
    if key = k then (key, n) :: rest
    else if key < k then (key, n) :: (k, m) :: rest
    else (k, m) :: mapPut key n rest

/-- `OnAvahiNewObject`, ZeroconfCluster.cxx:61-72. -/
def ZcCluster.onNewObject (c : ZcCluster) (key : Nat) (n : ClusterNode) : ZcCluster :=
  { c with memberMap := mapPut key n c.memberMap, dirty := true }

/-- `OnAvahiRemoveObject`, ZeroconfCluster.cxx:74-86. -/
def ZcCluster.onRemoveObject (c : ZcCluster) (key : Nat) : ZcCluster :=
  match c.memberMap.lookup key with
  | none => c
  | some _ => { c with memberMap := c.memberMap.filter (·.1 != key), dirty := true }

/-- `FillMemberList`, ZeroconfCluster.cxx:25-33. -/
def ZcCluster.fillMemberList (c : ZcCluster) : ZcCluster := { c with memberList := c.memberMap.map (·.1) }

/-- Dereference the iterators: `none` if one of them is dangling (its element
was erased) – undefined behaviour. -/
def derefAll (map : List (Nat × ClusterNode)) : List Nat → Option (List (Nat × ClusterNode))
  | [] => some []
  | k :: ks =>
    match map.lookup k, derefAll map ks with
    | some n, some ns => some ((k, n) :: ns)
    | _, _ => none

/-- `Pick`, ZeroconfCluster.cxx:35-59: `none` is undefined behaviour, otherwise
the chosen node (or the null address) and the cluster afterwards. -/
def ZcCluster.pick (sort : ((Nat × ClusterNode) → (Nat × ClusterNode) → Bool) → List (Nat × ClusterNode) → List (Nat × ClusterNode))
    (lt : ClusterNode → ClusterNode → Bool) (c : ZcCluster) : Option (Option ClusterNode × ZcCluster) :=
  let c := if c.dirty then { c.fillMemberList with dirty := false } else c
  if c.memberList = [] then some (none, c)
  else
    match derefAll c.memberMap c.memberList with
    | none => none
    | some nodes =>
      let sorted := sort (fun a b => lt a.2 b.2) nodes
      match sorted with
      | [] => none
      | front :: _ => some (some front.2, { c with memberList := sorted.map (·.1) })

/-- The variants of `proxy_to`, Listener.hxx. -/
inductive ProxyTo
  | none
  | host (address : Nat)
  | cluster (c : ZcCluster)

/-- Result of `GetProxyTo`: an address, null (serve the client here), or the
exception "Zeroconf cluster is empty"; `undefined` if `Pick` is undefined. -/
inductive ProxyTarget
  | address (a : Nat)
  | null
  | error
  | undefined
  deriving DecidableEq, Repr

/-- `Listener::GetProxyTo`, Listener.cxx:174-206. -/
def getProxyTo (sort : ((Nat × ClusterNode) → (Nat × ClusterNode) → Bool) → List (Nat × ClusterNode) → List (Nat × ClusterNode))
    (lt : ClusterNode → ClusterNode → Bool) (skipOurOwn : Bool) : ProxyTo → ProxyTarget
  | .none => .null
  | .host a => .address a
  | .cluster c =>
    match c.pick sort lt with
    | Option.none => .undefined
    | some (Option.none, _) => .error
    | some (some n, _) => if skipOurOwn && n.ourOwn then .null else .address n.address

/-- What happens to a cluster: announcements, withdrawals, and picks for
clients (each with its own comparison, from its architecture and address). -/
inductive ZcEvent
  | new (key : Nat) (n : ClusterNode)
  | remove (key : Nat)
  | pick (lt : ClusterNode → ClusterNode → Bool)

def ZcCluster.step (sort : ((Nat × ClusterNode) → (Nat × ClusterNode) → Bool) → List (Nat × ClusterNode) → List (Nat × ClusterNode))
    (c : ZcCluster) : ZcEvent → Option ZcCluster
  | .new k n => some (c.onNewObject k n)
  | .remove k => some (c.onRemoveObject k)
  | .pick lt => (c.pick sort lt).map (·.2)

def ZcCluster.run (sort : ((Nat × ClusterNode) → (Nat × ClusterNode) → Bool) → List (Nat × ClusterNode) → List (Nat × ClusterNode))
    (c : ZcCluster) : List ZcEvent → Option ZcCluster
  | [] => some c
  | e :: es => match c.step sort e with
    | none => none
    | some c => ZcCluster.run sort c es

end Lukko.Model
