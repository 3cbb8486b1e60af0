import Verif.Base
/-
Model of e.c: the fixed text for an errno value. The numeric values of the errno names are
those of Linux, and e.h's own value for a name Linux does not have.
-/
namespace Log

/-- e.c:22-117: the table, in source order. -/
def errnoTable : List (Int × Bytes) := [
  (0, b!"no error"),
  (4, b!"interrupted system call"),
  (12, b!"out of memory"),
  (2, b!"file does not exist"),
  (26, b!"text busy"),
  (5, b!"input/output error"),
  (17, b!"file already exists"),
  (110, b!"timed out"),
  (115, b!"operation in progress"),
  (11, b!"temporary failure"),
  (11, b!"input/output would block"),
  (32, b!"broken pipe"),
  (1, b!"permission denied"),
  (13, b!"access denied"),
  (19, b!"device not configured"),
  (71, b!"protocol error"),
  (21, b!"is a directory"),
  (3, b!"no such process"),
  (7, b!"argument list too long"),
  (8, b!"exec format error"),
  (9, b!"file descriptor not open"),
  (10, b!"no child processes"),
  (35, b!"operation would cause deadlock"),
  (14, b!"bad address"),
  (15, b!"not a block device"),
  (16, b!"device busy"),
  (18, b!"cross-device link"),
  (20, b!"not a directory"),
  (22, b!"invalid argument"),
  (23, b!"system cannot open more files"),
  (24, b!"process cannot open more files"),
  (25, b!"not a tty"),
  (27, b!"file too big"),
  (28, b!"out of disk space"),
  (29, b!"unseekable descriptor"),
  (30, b!"read-only file system"),
  (31, b!"too many links"),
  (33, b!"input out of range"),
  (34, b!"output out of range"),
  (114, b!"operation already in progress"),
  (88, b!"not a socket"),
  (89, b!"destination address required"),
  (90, b!"message too long"),
  (91, b!"incorrect protocol type"),
  (92, b!"protocol not available"),
  (93, b!"protocol not supported"),
  (94, b!"socket type not supported"),
  (95, b!"operation not supported"),
  (96, b!"protocol family not supported"),
  (97, b!"address family not supported"),
  (98, b!"address already used"),
  (99, b!"address not available"),
  (100, b!"network down"),
  (101, b!"network unreachable"),
  (102, b!"network reset"),
  (103, b!"connection aborted"),
  (104, b!"connection reset"),
  (105, b!"out of buffer space"),
  (106, b!"already connected"),
  (107, b!"not connected"),
  (108, b!"socket shut down"),
  (109, b!"too many references"),
  (111, b!"connection refused"),
  (40, b!"symbolic link loop"),
  (36, b!"file name too long"),
  (112, b!"host down"),
  (113, b!"host unreachable"),
  (39, b!"directory not empty"),
  (-6067, b!"too many processes"),
  (87, b!"too many users"),
  (122, b!"disk quota exceeded"),
  (116, b!"stale NFS file handle"),
  (66, b!"too many levels of remote in path"),
  (-6072, b!"RPC structure is bad"),
  (-6073, b!"RPC version mismatch"),
  (-6074, b!"RPC program unavailable"),
  (-6075, b!"program version mismatch"),
  (-6076, b!"bad procedure for program"),
  (37, b!"no locks available"),
  (38, b!"system call not available"),
  (-6079, b!"bad file type"),
  (-6080, b!"authentication error"),
  (-6081, b!"not authenticated"),
  (60, b!"not a stream device"),
  (62, b!"timer expired"),
  (63, b!"out of stream resources"),
  (42, b!"no message of desired type"),
  (74, b!"bad message type"),
  (43, b!"identifier removed"),
  (64, b!"machine not on network"),
  (67, b!"link severed"),
  (68, b!"advertise error"),
  (69, b!"srmount error"),
  (70, b!"communication error"),
  (72, b!"multihop attempted"),
  (78, b!"remote address changed")]

/-- e.c:21-119: the first matching entry, or "unknown error". -/
def e_str (i : Int) : Bytes :=
  match errnoTable.find? (fun p => p.1 = i) with
  | some p => p.2
  | none => b!"unknown error"

end Log
