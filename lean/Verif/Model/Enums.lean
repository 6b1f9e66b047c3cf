import Verif.Model.Std

/-!
# Enumerations and their strings (src/electionguard/manifest.cpp, ballot.cpp)

The maps are `std::map`s, iterated in the order of the enumeration values.
-/

namespace EG

/-- utils.hpp:28-37 `findByValue`. -/
def findByValue {K : Type} (m : List (K × Str)) (value : Str) : Res K :=
  match m.find? (fun e => e.2 = value) with
  | some e => .ok e.1
  | none => .throw .outOfRange

/-- `_map.find(value)->second`: dereferencing `end()` is undefined behaviour. -/
def findKey {K : Type} [DecidableEq K] (m : List (K × Str)) (key : K) : Res Str :=
  match m.find? (fun e => e.1 = key) with
  | some e => .ok e.2
  | none => .ub

/-- The `try`/`catch` of the functions reading an enumeration value. -/
def orElseUnknown {K : Type} (unknown : K) : Res K → Res K
  | .throw _ => .ok unknown
  | r => r

/-- manifest.hpp:21-30 `ElectionType`. -/
inductive ElectionType where
  | unknown | general | partisanPrimaryClosed | partisanPrimaryOpen | primary | runoff | special | other
  deriving DecidableEq, Repr

/-- manifest.cpp:38-47. -/
def electionTypeMap : List (ElectionType × Str) :=
  [(.unknown, "unknown".toList),
   (.general, "general".toList),
   (.partisanPrimaryClosed, "partisanPrimaryClosed".toList),
   (.partisanPrimaryOpen, "partisanPrimaryOpen".toList),
   (.primary, "primary".toList),
   (.runoff, "runoff".toList),
   (.special, "special".toList),
   (.other, "other".toList)]

/-- `getElectionTypeString` (manifest.cpp:34-64). -/
def ElectionType.string (v : ElectionType) : Res Str := findKey electionTypeMap v

/-- `getElectionType` (manifest.cpp:34-64). -/
def electionTypeOf (s : Str) : Res ElectionType :=
  orElseUnknown .unknown (findByValue electionTypeMap s)

/-- manifest.hpp:47-77 `ReportingUnitType`. -/
inductive ReportingUnitType where
  | unknown | ballotBatch | ballotStyleArea | borough | city | cityCouncil | combinedPrecinct | congressional | country | county | countyCouncil | dropBox | judicial | municipality | polling_place | precinct | school | special | splitPrecinct | state | stateHouse | stateSenate | township | utility | village | voteCenter | ward | water | other
  deriving DecidableEq, Repr

/-- manifest.cpp:73-103. -/
def reportingUnitTypeMap : List (ReportingUnitType × Str) :=
  [(.unknown, "unknown".toList),
   (.ballotBatch, "ballotBatch".toList),
   (.ballotStyleArea, "ballotStyleArea".toList),
   (.borough, "borough".toList),
   (.city, "city".toList),
   (.cityCouncil, "cityCouncil".toList),
   (.combinedPrecinct, "combinedPrecinct".toList),
   (.congressional, "congressional".toList),
   (.country, "country".toList),
   (.county, "county".toList),
   (.countyCouncil, "countyCouncil".toList),
   (.dropBox, "dropBox".toList),
   (.judicial, "judicial".toList),
   (.municipality, "municipality".toList),
   (.polling_place, "polling_place".toList),
   (.precinct, "precinct".toList),
   (.school, "school".toList),
   (.special, "special".toList),
   (.splitPrecinct, "splitPrecinct".toList),
   (.state, "state".toList),
   (.stateHouse, "stateHouse".toList),
   (.stateSenate, "stateSenate".toList),
   (.township, "township".toList),
   (.utility, "utility".toList),
   (.village, "village".toList),
   (.voteCenter, "voteCenter".toList),
   (.ward, "ward".toList),
   (.water, "water".toList),
   (.other, "other".toList)]

/-- `getReportingUnitTypeString` (manifest.cpp:68-119). -/
def ReportingUnitType.string (v : ReportingUnitType) : Res Str := findKey reportingUnitTypeMap v

/-- `getReportingUnitType` (manifest.cpp:68-119). -/
def reportingUnitTypeOf (s : Str) : Res ReportingUnitType :=
  orElseUnknown .unknown (findByValue reportingUnitTypeMap s)

/-- manifest.hpp:94-108 `VoteVariationType`. -/
inductive VoteVariationType where
  | unknown | one_of_m | approval | borda | cumulative | majority | n_of_m | plurality | proportional | range | rcv | super_majority | other
  deriving DecidableEq, Repr

/-- manifest.cpp:129-142. -/
def voteVariationTypeMap : List (VoteVariationType × Str) :=
  [(.unknown, "unknown".toList),
   (.one_of_m, "one_of_m".toList),
   (.borda, "borda".toList),
   (.cumulative, "cumulative".toList),
   (.majority, "majority".toList),
   (.n_of_m, "n_of_m".toList),
   (.plurality, "plurality".toList),
   (.proportional, "proportional".toList),
   (.range, "range".toList),
   (.rcv, "rcv".toList),
   (.super_majority, "super_majority".toList),
   (.other, "other".toList)]

/-- `getVoteVariationTypeString` (manifest.cpp:123-159). -/
def VoteVariationType.string (v : VoteVariationType) : Res Str := findKey voteVariationTypeMap v

/-- `getVoteVariationType` (manifest.cpp:123-159). -/
def voteVariationTypeOf (s : Str) : Res VoteVariationType :=
  orElseUnknown .unknown (findByValue voteVariationTypeMap s)

/-- ballot.hpp `BallotBoxState`. -/
inductive BallotBoxState where
  | cast | spoiled | unknown
  deriving DecidableEq, Repr

/-- ballot.cpp:38-43. -/
def ballotBoxStateMap : List (BallotBoxState × Str) :=
  [(.cast, "cast".toList),
   (.spoiled, "spoiled".toList),
   (.unknown, "unknown".toList)]

/-- ballot.cpp:45-48 `getBallotBoxStateString`. -/
def BallotBoxState.string (v : BallotBoxState) : Res Str := findKey ballotBoxStateMap v

/-- ballot.cpp:50-59 `getBallotBoxState`. -/
def ballotBoxStateOf (s : Str) : Res BallotBoxState :=
  orElseUnknown .unknown (findByValue ballotBoxStateMap s)

end EG
