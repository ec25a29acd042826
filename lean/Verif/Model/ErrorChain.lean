import Verif.Model.Encoding
/-!
How an error code changes while it travels from the function where the error happened to the
caller: every function on the way adds its own identity (Internal/zerrorUpdate.c,
Internal/zerrorEncodeHigh.c), and how the code is taken apart for the user
(SemiPublic/zerrorSpecifics.c). Not modelled: the messages written to the log.
-/
namespace Hec

/-- zerrorEncodeHigh.c:33-37. -/
def zerrorEncodeHigh (errorCodeIn highFunction : Int) : Int :=
  errorCodeIn + highFunction * 1000000

/-- zerrorUpdate.c:52-81; the messages are left out, the value returned is the same. -/
def zerrorUpdate (errorCodeIn functionID : Int) : Int :=
  if errorCodeIn = 0 then errorCodeIn else zerrorEncodeHigh errorCodeIn functionID

/-- What the calling functions do with the status of a function they call, for instance
zreadInternal.c:253-256 and zwriteInternal.c:249-252: `if (zisError(status)) return
zerrorUpdate(ifltab, status, ID)`, and go on otherwise. The list holds the identities of the
calling functions, the innermost first. -/
def passUp (status : Int) (callers : List Int) : Int :=
  callers.foldl (fun s f => if zisError s then zerrorUpdate s f else s) status

/-- zerrorSpecifics.c:82-95 (ERROR_TYPE_WARNING 1, ACCESS 2, FILE 3, MEMORY 4:
zerrorCodes.h:264-268; severities zerrorCodes.h:234-255). -/
def errorType (errorCode : Int) : Int :=
  if (zerrorDecode errorCode).severity ≥ 9 then 4
  else if (zerrorDecode errorCode).severity ≥ 6 then 3
  else if (zerrorDecode errorCode).severity ≥ 4 then 2
  else 1

/-- zerrorSpecifics.c:110-118: the identities of the functions whose names are given as the
function where the error happened and the function which called it. -/
def errorFunctions (errorCode : Int) : Int × Int :=
  ((zerrorDecode errorCode).low, (zerrorDecode errorCode).high)

end Hec
