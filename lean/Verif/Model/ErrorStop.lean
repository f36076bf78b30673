import Verif.Model.TransportRun

/-!
# Errors met by some of the processes

`Error` (src/exceptions.cpp L6-16) and the places where it is called by the head, or by the processes of the first pool,
only.  A process is the list of its collective communications up to its end; what it computes in between is left out.
-/
namespace Verif.Model

/-- What a process does that the others take part in. -/
inductive MpiAct where
  /-- a call to the collective communication of this name, on all processes -/
  | collective (name : String)
  /-- the process ends with this code -/
  | stop (code : Int)
  deriving DecidableEq, Repr

/-- How all processes end: with their codes, or waiting forever (or in an erroneous call) because they are not all in the
same collective. -/
inductive Ending where
  | finished (codes : List Int)
  | stuck
  deriving DecidableEq, Repr

/-- The code with which a process ends now. -/
def stopCode : List MpiAct → Option Int
  | .stop c :: _ => some c
  | _ => none

/-- The first process and the others, from one collective to the next: a collective completes when all processes of
MPI_COMM_WORLD call it. -/
def together : List MpiAct → List (List MpiAct) → Ending
  | [], _ => .stuck
  | .stop c :: _, ps =>
    if ps.all fun p => (stopCode p).isSome then .finished (c :: ps.filterMap stopCode) else .stuck
  | .collective n :: p, ps =>
    if ps.all fun q => q.head? == some (.collective n) then together p (ps.map List.tail) else .stuck

/-- All processes, `program rank` being what process `rank` does. -/
def runProcesses (numProcesses : Nat) (program : Nat → List MpiAct) : Ending :=
  match (List.range numProcesses).map program with
  | [] => .finished []
  | p :: ps => together p ps

/-- `MPIcontroller::finalize` followed by the end of the process, src/mpi/mpiController.cpp L109-131. -/
def finalizeActs (code : Int) : List MpiAct := [.collective "barrier", .stop code]

/-- `Error`, src/exceptions.cpp L6-16: a barrier, `finalize`, `exit(1)`. -/
def errorActs : List MpiAct := .collective "barrier" :: finalizeActs 1

/-- The program, src/main.cpp L14-54.  All processes read the input; `printInputSummary`, src/context.cpp L823-1160, returns
at once except on the head, which makes the sanity check at its end; then all choose the app and check its requirements
(`accepted`), run it and finalize. -/
def mainProgram (s : RunSettings) (accepted : Bool) (run : List MpiAct) (rank : Nat) : List MpiAct :=
  if rank = 0 ∧ inputSanityCheck s = .error then errorActs
  else if accepted then run ++ finalizeActs 0
  else errorActs

/-- Reading the coupling without HDF5: the processes of the first pool open the file, the others go on to the broadcasts on
all processes, src/interaction/interaction_elph_parsing.cpp L23-27 and L126-132 (the broadcast
between pools is left out).  The pool of a process is
src/mpi/mpiController.cpp L60; `rest` is what follows. -/
def readCouplingText (poolSize : Nat) (fileOpens : Bool) (rest : List MpiAct) (rank : Nat) : List MpiAct :=
  if rank / poolSize = 0 ∧ fileOpens = false then errorActs
  else List.replicate 5 (.collective "bcast") ++ rest

/-- The header of the coupling with HDF5: the processes of the first pool read it and the exceptions are caught around the
broadcasts, src/interaction/interaction_elph_parsing.cpp L174-182 and L231-260. -/
def readCouplingHeader (poolSize : Nat) (hasHeader : Bool) (rest : List MpiAct) (rank : Nat) : List MpiAct :=
  if rank / poolSize = 0 ∧ hasHeader = false then errorActs
  else List.replicate 5 (.collective "bcast") ++ rest

/-- `parseHDF5`, src/interaction/interaction_elph_parsing.cpp L638-680: all processes look for the file, the head opens it as
an HDF5 file to read the version, which is broadcast. -/
def readCouplingHdf5 (poolSize : Nat) (fileOpens isHdf5 hasHeader : Bool) (rest : List MpiAct) (rank : Nat) :
    List MpiAct :=
  if fileOpens = false then errorActs
  else if rank = 0 ∧ isHdf5 = false then errorActs
  else .collective "bcast" :: readCouplingHeader poolSize hasHeader rest rank

/-- `readQEPhoebeHeader`, src/apps/elph_qe_to_phoebe_app.cpp L305-312 and L357-373. -/
def readHeaderProgram (fileOpens : Bool) (rest : List MpiAct) (rank : Nat) : List MpiAct :=
  if rank = 0 ∧ fileOpens = false then errorActs
  else List.replicate 12 (.collective "bcast") ++ rest

/-- The end of `epaPostProcessing` and of the program, src/apps/qe_to_phoebe_epa.cpp L165-187 and src/main.cpp L44-54. -/
def writeEpaProgram (fileOpens : Bool) (rank : Nat) : List MpiAct :=
  if rank = 0 ∧ fileOpens = false then errorActs else finalizeActs 0

/-- The loop of the bisection, src/statistics_sweep.cpp L340-360, from iteration `iter` with `left` iterations to go:
`exits i` says that iteration `i` meets the exit condition, the same on all processes. -/
def bisectionLoop (exits : Nat → Bool) (rest : List MpiAct) (rank : Nat) : Nat → Nat → List MpiAct
  | 0, _ => rest
  | left + 1, iter =>
    if rank = 0 ∧ left = 0 then errorActs
    else .collective "allReduceSum" ::
      (if exits iter then rest else bisectionLoop exits rest rank left (iter + 1))

/-- The search of the chemical potential with distributed bands, src/statistics_sweep.cpp L326-360 and L261-263 (`maxIter` is
100, src/statistics_sweep.h L112); `bracketed`: the bounds have opposite signs. -/
def bisectionProgram (bracketed : Bool) (exits : Nat → Bool) (rest : List MpiAct) (rank : Nat) : List MpiAct :=
  .collective "allReduceMin" :: .collective "allReduceMax" :: .collective "allReduceSum" :: .collective "allReduceSum" ::
    (if bracketed then bisectionLoop exits rest rank 100 0 else errorActs)

end Verif.Model
