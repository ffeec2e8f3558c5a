import Verif.Model.Driver
/-
Commands which are written to the driver outside of the loops modelled in Model/Driver.lean.
-/
set_option autoImplicit false

namespace Gb.Driver

/-- gbinder_io.c:280-291 `encode_ptr_cookie` -/
def encodePtrCookie (io : Io) (obj : Nat) : Bytes := leBytes io.ptrSize obj ++ leBytes io.ptrSize 0

/-- gbinder_io.c:265-277 `encode_handle_cookie`, the structure is packed (binder.h) -/
def encodeHandleCookie (io : Io) (handle : Nat) : Bytes := leBytes 4 handle ++ leBytes io.ptrSize handle

/-- gbinder_driver.c:1024-1041 `gbinder_driver_acquire_done` -/
def acquireDoneCommand (io : Io) (obj : Nat) : Bytes :=
  leBytes 4 (BC.acquireDone.code io) ++ encodePtrCookie io obj

/-- gbinder_driver.c:1043-1064 `gbinder_driver_dead_binder_done`, with gbinder_io.c:154-165
`encode_cookie` -/
def deadBinderDoneCommand (io : Io) (handle : Nat) : Bytes :=
  leBytes 4 (BC.deadBinderDone.code io) ++ leBytes io.ptrSize handle

/-- gbinder_driver.c:361-377 `gbinder_driver_handle_cookie`, called by 1066-1078
`gbinder_driver_request_death_notification` and 1080-1092
`gbinder_driver_clear_death_notification` -/
def handleCookieCommand (io : Io) (c : BC) (handle : Nat) : Bytes :=
  leBytes 4 (c.code io) ++ encodeHandleCookie io handle

/-- gbinder_driver.c:323-339 `gbinder_driver_cmd_int32`, called by gbinder_driver_increfs,
gbinder_driver_decrefs, gbinder_driver_acquire, gbinder_driver_release (1094-1128) -/
def cmdInt32Command (io : Io) (c : BC) (handle : Nat) : Bytes :=
  leBytes 4 (c.code io) ++ leBytes 4 handle

/-- gbinder_driver.c:309-321 `gbinder_driver_cmd`, called by gbinder_driver_enter_looper and
gbinder_driver_exit_looper (1180-1194) -/
def cmdCommand (io : Io) (c : BC) : Bytes := leBytes 4 (c.code io)

/-- gbinder_driver.c:1066-1078 `gbinder_driver_request_death_notification` -/
def requestDeathCommand (io : Io) (handle : Nat) : Bytes := handleCookieCommand io .requestDeathNotification handle

/-- gbinder_driver.c:1080-1092 `gbinder_driver_clear_death_notification` -/
def clearDeathCommand (io : Io) (handle : Nat) : Bytes := handleCookieCommand io .clearDeathNotification handle

/-- gbinder_driver.c:1094-1101 `gbinder_driver_increfs` -/
def increfsCommand (io : Io) (handle : Nat) : Bytes := cmdInt32Command io .increfs handle

/-- gbinder_driver.c:1103-1110 `gbinder_driver_decrefs` -/
def decrefsCommand (io : Io) (handle : Nat) : Bytes := cmdInt32Command io .decrefs handle

/-- gbinder_driver.c:1112-1119 `gbinder_driver_acquire` -/
def acquireCommand (io : Io) (handle : Nat) : Bytes := cmdInt32Command io .acquire handle

/-- gbinder_driver.c:1121-1128 `gbinder_driver_release` -/
def releaseCommand (io : Io) (handle : Nat) : Bytes := cmdInt32Command io .release handle

/-- gbinder_driver.c:1180-1186 `gbinder_driver_enter_looper` -/
def enterLooperCommand (io : Io) : Bytes := cmdCommand io .enterLooper

/-- gbinder_driver.c:1188-1194 `gbinder_driver_exit_looper` -/
def exitLooperCommand (io : Io) : Bytes := cmdCommand io .exitLooper

/-- gbinder_driver.c:1156-1178 `gbinder_driver_free_buffer` -/
def freeBufferCommand (io : Io) (addr : Nat) : Bytes :=
  leBytes 4 (BC.freeBuffer.code io) ++ leBytes io.ptrSize addr

end Gb.Driver
