import Verif.Py.Text

/-!
# The standard textual header template

Generated by tools/extract_template.py from `segpy/textual_reel_header.py`.
-/

namespace Segpy

/-- The code points of the lines of `_TEMPLATE` after the first (empty) one, textual_reel_header.py:5-46.  (Given as code points rather than as
string literals because the kernel evaluates these much faster.) -/
def templateLines : List (List Nat) := [
  -- C 1 CLIENT { client             } COMPANY { company           } CREW NO {crew  }
  [67, 32, 49, 32, 67, 76, 73, 69, 78, 84, 32, 123, 32, 99, 108, 105, 101, 110, 116, 32,
   32, 32, 32, 32, 32, 32, 32, 32, 32, 32, 32, 32, 125, 32, 67, 79, 77, 80, 65, 78,
   89, 32, 123, 32, 99, 111, 109, 112, 97, 110, 121, 32, 32, 32, 32, 32, 32, 32, 32, 32,
   32, 32, 125, 32, 67, 82, 69, 87, 32, 78, 79, 32, 123, 99, 114, 101, 119, 32, 32, 125],
  -- C 2 LINE { line   } AREA { area               } MAP ID { map_id                }
  [67, 32, 50, 32, 76, 73, 78, 69, 32, 123, 32, 108, 105, 110, 101, 32, 32, 32, 125, 32,
   65, 82, 69, 65, 32, 123, 32, 97, 114, 101, 97, 32, 32, 32, 32, 32, 32, 32, 32, 32,
   32, 32, 32, 32, 32, 32, 125, 32, 77, 65, 80, 32, 73, 68, 32, 123, 32, 109, 97, 112,
   95, 105, 100, 32, 32, 32, 32, 32, 32, 32, 32, 32, 32, 32, 32, 32, 32, 32, 32, 125],
  -- C 3 REEL NO {reelnum} DAY-START OF REEL {d} YEAR {yr} OBSERVER {observer       }
  [67, 32, 51, 32, 82, 69, 69, 76, 32, 78, 79, 32, 123, 114, 101, 101, 108, 110, 117, 109,
   125, 32, 68, 65, 89, 45, 83, 84, 65, 82, 84, 32, 79, 70, 32, 82, 69, 69, 76, 32,
   123, 100, 125, 32, 89, 69, 65, 82, 32, 123, 121, 114, 125, 32, 79, 66, 83, 69, 82, 86,
   69, 82, 32, 123, 111, 98, 115, 101, 114, 118, 101, 114, 32, 32, 32, 32, 32, 32, 32, 125],
  -- C 4 INSTRUMENT: MFG { mfg    } MODEL { model  } SERIAL NO { serial             }
  [67, 32, 52, 32, 73, 78, 83, 84, 82, 85, 77, 69, 78, 84, 58, 32, 77, 70, 71, 32,
   123, 32, 109, 102, 103, 32, 32, 32, 32, 125, 32, 77, 79, 68, 69, 76, 32, 123, 32, 109,
   111, 100, 101, 108, 32, 32, 125, 32, 83, 69, 82, 73, 65, 76, 32, 78, 79, 32, 123, 32,
   115, 101, 114, 105, 97, 108, 32, 32, 32, 32, 32, 32, 32, 32, 32, 32, 32, 32, 32, 125],
  -- C 5 DATA TRACES/RECORD {dtpr} AUXILIARY TRACES/RECORD {atpr } CDP FOLD {cdpfold}
  [67, 32, 53, 32, 68, 65, 84, 65, 32, 84, 82, 65, 67, 69, 83, 47, 82, 69, 67, 79,
   82, 68, 32, 123, 100, 116, 112, 114, 125, 32, 65, 85, 88, 73, 76, 73, 65, 82, 89, 32,
   84, 82, 65, 67, 69, 83, 47, 82, 69, 67, 79, 82, 68, 32, 123, 97, 116, 112, 114, 32,
   125, 32, 67, 68, 80, 32, 70, 79, 76, 68, 32, 123, 99, 100, 112, 102, 111, 108, 100, 125],
  -- C 6 SAMPLE INTERVAL {intvl} SAMPLES/TRACE {spt} BITS/IN {bi} BYTES/SAMPLE {bps }
  [67, 32, 54, 32, 83, 65, 77, 80, 76, 69, 32, 73, 78, 84, 69, 82, 86, 65, 76, 32,
   123, 105, 110, 116, 118, 108, 125, 32, 83, 65, 77, 80, 76, 69, 83, 47, 84, 82, 65, 67,
   69, 32, 123, 115, 112, 116, 125, 32, 66, 73, 84, 83, 47, 73, 78, 32, 123, 98, 105, 125,
   32, 66, 89, 84, 69, 83, 47, 83, 65, 77, 80, 76, 69, 32, 123, 98, 112, 115, 32, 125],
  -- C 7 RECORDING FORMAT {rfmt} FORMAT THIS REEL {ftr } MEASUREMENT SYSTEM {measmnt}
  [67, 32, 55, 32, 82, 69, 67, 79, 82, 68, 73, 78, 71, 32, 70, 79, 82, 77, 65, 84,
   32, 123, 114, 102, 109, 116, 125, 32, 70, 79, 82, 77, 65, 84, 32, 84, 72, 73, 83, 32,
   82, 69, 69, 76, 32, 123, 102, 116, 114, 32, 125, 32, 77, 69, 65, 83, 85, 82, 69, 77,
   69, 78, 84, 32, 83, 89, 83, 84, 69, 77, 32, 123, 109, 101, 97, 115, 109, 110, 116, 125],
  -- C 8 SAMPLE CODE: FLOATING PT {f} FIXED PT {x} FIXED PT-GAIN {g} CORRELATED {cor}
  [67, 32, 56, 32, 83, 65, 77, 80, 76, 69, 32, 67, 79, 68, 69, 58, 32, 70, 76, 79,
   65, 84, 73, 78, 71, 32, 80, 84, 32, 123, 102, 125, 32, 70, 73, 88, 69, 68, 32, 80,
   84, 32, 123, 120, 125, 32, 70, 73, 88, 69, 68, 32, 80, 84, 45, 71, 65, 73, 78, 32,
   123, 103, 125, 32, 67, 79, 82, 82, 69, 76, 65, 84, 69, 68, 32, 123, 99, 111, 114, 125],
  -- C 9 GAIN  TYPE: FIXED {i} BINARY {b} FLOATING POINT {c} OTHER {other           }
  [67, 32, 57, 32, 71, 65, 73, 78, 32, 32, 84, 89, 80, 69, 58, 32, 70, 73, 88, 69,
   68, 32, 123, 105, 125, 32, 66, 73, 78, 65, 82, 89, 32, 123, 98, 125, 32, 70, 76, 79,
   65, 84, 73, 78, 71, 32, 80, 79, 73, 78, 84, 32, 123, 99, 125, 32, 79, 84, 72, 69,
   82, 32, 123, 111, 116, 104, 101, 114, 32, 32, 32, 32, 32, 32, 32, 32, 32, 32, 32, 125],
  -- C10 FILTERS: ALIAS {a }HZ  NOTCH {n }HZ  BAND {b1}-{b2 }HZ  SLOPE {s}-{s2}DB/OCT
  [67, 49, 48, 32, 70, 73, 76, 84, 69, 82, 83, 58, 32, 65, 76, 73, 65, 83, 32, 123,
   97, 32, 125, 72, 90, 32, 32, 78, 79, 84, 67, 72, 32, 123, 110, 32, 125, 72, 90, 32,
   32, 66, 65, 78, 68, 32, 123, 98, 49, 125, 45, 123, 98, 50, 32, 125, 72, 90, 32, 32,
   83, 76, 79, 80, 69, 32, 123, 115, 125, 45, 123, 115, 50, 125, 68, 66, 47, 79, 67, 84],
  -- C11 SOURCE: TYPE {type    } NUMBER/POINT {npt } POINT INTERVAL {point_interval }
  [67, 49, 49, 32, 83, 79, 85, 82, 67, 69, 58, 32, 84, 89, 80, 69, 32, 123, 116, 121,
   112, 101, 32, 32, 32, 32, 125, 32, 78, 85, 77, 66, 69, 82, 47, 80, 79, 73, 78, 84,
   32, 123, 110, 112, 116, 32, 125, 32, 80, 79, 73, 78, 84, 32, 73, 78, 84, 69, 82, 86,
   65, 76, 32, 123, 112, 111, 105, 110, 116, 95, 105, 110, 116, 101, 114, 118, 97, 108, 32, 125],
  -- C12     PATTERN: {source_pattern         } LENGTH {lent} WIDTH {width          }
  [67, 49, 50, 32, 32, 32, 32, 32, 80, 65, 84, 84, 69, 82, 78, 58, 32, 123, 115, 111,
   117, 114, 99, 101, 95, 112, 97, 116, 116, 101, 114, 110, 32, 32, 32, 32, 32, 32, 32, 32,
   32, 125, 32, 76, 69, 78, 71, 84, 72, 32, 123, 108, 101, 110, 116, 125, 32, 87, 73, 68,
   84, 72, 32, 123, 119, 105, 100, 116, 104, 32, 32, 32, 32, 32, 32, 32, 32, 32, 32, 125],
  -- C13 SWEEP: START {ss}HZ  END {se}HZ  LENGTH {lms}MS  CHANNEL NO {q} TYPE {cd   }
  [67, 49, 51, 32, 83, 87, 69, 69, 80, 58, 32, 83, 84, 65, 82, 84, 32, 123, 115, 115,
   125, 72, 90, 32, 32, 69, 78, 68, 32, 123, 115, 101, 125, 72, 90, 32, 32, 76, 69, 78,
   71, 84, 72, 32, 123, 108, 109, 115, 125, 77, 83, 32, 32, 67, 72, 65, 78, 78, 69, 76,
   32, 78, 79, 32, 123, 113, 125, 32, 84, 89, 80, 69, 32, 123, 99, 100, 32, 32, 32, 125],
  -- C14 TAPER: START LENGTH {tsl }MS  END LENGTH {tel }MS  TYPE {taper_type        }
  [67, 49, 52, 32, 84, 65, 80, 69, 82, 58, 32, 83, 84, 65, 82, 84, 32, 76, 69, 78,
   71, 84, 72, 32, 123, 116, 115, 108, 32, 125, 77, 83, 32, 32, 69, 78, 68, 32, 76, 69,
   78, 71, 84, 72, 32, 123, 116, 101, 108, 32, 125, 77, 83, 32, 32, 84, 89, 80, 69, 32,
   123, 116, 97, 112, 101, 114, 95, 116, 121, 112, 101, 32, 32, 32, 32, 32, 32, 32, 32, 125],
  -- C15 SPREAD: OFFSET {off } MAX DISTANCE {md  } GROUP INTERVAL {group_interval   }
  [67, 49, 53, 32, 83, 80, 82, 69, 65, 68, 58, 32, 79, 70, 70, 83, 69, 84, 32, 123,
   111, 102, 102, 32, 125, 32, 77, 65, 88, 32, 68, 73, 83, 84, 65, 78, 67, 69, 32, 123,
   109, 100, 32, 32, 125, 32, 71, 82, 79, 85, 80, 32, 73, 78, 84, 69, 82, 86, 65, 76,
   32, 123, 103, 114, 111, 117, 112, 95, 105, 110, 116, 101, 114, 118, 97, 108, 32, 32, 32, 125],
  -- C16 GEOPHONES: PER GROUP {p} SPACING {y} FREQUENCY {r} MFG {gmfg  } MODEL {gmod}
  [67, 49, 54, 32, 71, 69, 79, 80, 72, 79, 78, 69, 83, 58, 32, 80, 69, 82, 32, 71,
   82, 79, 85, 80, 32, 123, 112, 125, 32, 83, 80, 65, 67, 73, 78, 71, 32, 123, 121, 125,
   32, 70, 82, 69, 81, 85, 69, 78, 67, 89, 32, 123, 114, 125, 32, 77, 70, 71, 32, 123,
   103, 109, 102, 103, 32, 32, 125, 32, 77, 79, 68, 69, 76, 32, 123, 103, 109, 111, 100, 125],
  -- C17     PATTERN: {geophone_pattern      } LENGTH {glen} WIDTH {geophone_width  }
  [67, 49, 55, 32, 32, 32, 32, 32, 80, 65, 84, 84, 69, 82, 78, 58, 32, 123, 103, 101,
   111, 112, 104, 111, 110, 101, 95, 112, 97, 116, 116, 101, 114, 110, 32, 32, 32, 32, 32, 32,
   125, 32, 76, 69, 78, 71, 84, 72, 32, 123, 103, 108, 101, 110, 125, 32, 87, 73, 68, 84,
   72, 32, 123, 103, 101, 111, 112, 104, 111, 110, 101, 95, 119, 105, 100, 116, 104, 32, 32, 125],
  -- C18 TRACES SORTED BY: RECORD {u} CDP {v} OTHER { sort_other                    }
  [67, 49, 56, 32, 84, 82, 65, 67, 69, 83, 32, 83, 79, 82, 84, 69, 68, 32, 66, 89,
   58, 32, 82, 69, 67, 79, 82, 68, 32, 123, 117, 125, 32, 67, 68, 80, 32, 123, 118, 125,
   32, 79, 84, 72, 69, 82, 32, 123, 32, 115, 111, 114, 116, 95, 111, 116, 104, 101, 114, 32,
   32, 32, 32, 32, 32, 32, 32, 32, 32, 32, 32, 32, 32, 32, 32, 32, 32, 32, 32, 125],
  -- C19 AMPLITUDE RECOVERY: NONE {ar} SPHERICAL DIV {sd } AGC {} OTHER {ar_other   }
  [67, 49, 57, 32, 65, 77, 80, 76, 73, 84, 85, 68, 69, 32, 82, 69, 67, 79, 86, 69,
   82, 89, 58, 32, 78, 79, 78, 69, 32, 123, 97, 114, 125, 32, 83, 80, 72, 69, 82, 73,
   67, 65, 76, 32, 68, 73, 86, 32, 123, 115, 100, 32, 125, 32, 65, 71, 67, 32, 123, 125,
   32, 79, 84, 72, 69, 82, 32, 123, 97, 114, 95, 111, 116, 104, 101, 114, 32, 32, 32, 125],
  -- C20 MAP PROJECTION {map_projection  } ZONE ID {zid} COORDINATE UNITS {co_units }
  [67, 50, 48, 32, 77, 65, 80, 32, 80, 82, 79, 74, 69, 67, 84, 73, 79, 78, 32, 123,
   109, 97, 112, 95, 112, 114, 111, 106, 101, 99, 116, 105, 111, 110, 32, 32, 125, 32, 90, 79,
   78, 69, 32, 73, 68, 32, 123, 122, 105, 100, 125, 32, 67, 79, 79, 82, 68, 73, 78, 65,
   84, 69, 32, 85, 78, 73, 84, 83, 32, 123, 99, 111, 95, 117, 110, 105, 116, 115, 32, 125],
  -- C21 PROCESSING: { processing1                                                  }
  [67, 50, 49, 32, 80, 82, 79, 67, 69, 83, 83, 73, 78, 71, 58, 32, 123, 32, 112, 114,
   111, 99, 101, 115, 115, 105, 110, 103, 49, 32, 32, 32, 32, 32, 32, 32, 32, 32, 32, 32,
   32, 32, 32, 32, 32, 32, 32, 32, 32, 32, 32, 32, 32, 32, 32, 32, 32, 32, 32, 32,
   32, 32, 32, 32, 32, 32, 32, 32, 32, 32, 32, 32, 32, 32, 32, 32, 32, 32, 32, 125],
  -- C22 PROCESSING: { processing2                                                  }
  [67, 50, 50, 32, 80, 82, 79, 67, 69, 83, 83, 73, 78, 71, 58, 32, 123, 32, 112, 114,
   111, 99, 101, 115, 115, 105, 110, 103, 50, 32, 32, 32, 32, 32, 32, 32, 32, 32, 32, 32,
   32, 32, 32, 32, 32, 32, 32, 32, 32, 32, 32, 32, 32, 32, 32, 32, 32, 32, 32, 32,
   32, 32, 32, 32, 32, 32, 32, 32, 32, 32, 32, 32, 32, 32, 32, 32, 32, 32, 32, 125],
  -- C23 { unassigned1                                                              }
  [67, 50, 51, 32, 123, 32, 117, 110, 97, 115, 115, 105, 103, 110, 101, 100, 49, 32, 32, 32,
   32, 32, 32, 32, 32, 32, 32, 32, 32, 32, 32, 32, 32, 32, 32, 32, 32, 32, 32, 32,
   32, 32, 32, 32, 32, 32, 32, 32, 32, 32, 32, 32, 32, 32, 32, 32, 32, 32, 32, 32,
   32, 32, 32, 32, 32, 32, 32, 32, 32, 32, 32, 32, 32, 32, 32, 32, 32, 32, 32, 125],
  -- C24 { unassigned2                                                              }
  [67, 50, 52, 32, 123, 32, 117, 110, 97, 115, 115, 105, 103, 110, 101, 100, 50, 32, 32, 32,
   32, 32, 32, 32, 32, 32, 32, 32, 32, 32, 32, 32, 32, 32, 32, 32, 32, 32, 32, 32,
   32, 32, 32, 32, 32, 32, 32, 32, 32, 32, 32, 32, 32, 32, 32, 32, 32, 32, 32, 32,
   32, 32, 32, 32, 32, 32, 32, 32, 32, 32, 32, 32, 32, 32, 32, 32, 32, 32, 32, 125],
  -- C25 { unassigned3                                                              }
  [67, 50, 53, 32, 123, 32, 117, 110, 97, 115, 115, 105, 103, 110, 101, 100, 51, 32, 32, 32,
   32, 32, 32, 32, 32, 32, 32, 32, 32, 32, 32, 32, 32, 32, 32, 32, 32, 32, 32, 32,
   32, 32, 32, 32, 32, 32, 32, 32, 32, 32, 32, 32, 32, 32, 32, 32, 32, 32, 32, 32,
   32, 32, 32, 32, 32, 32, 32, 32, 32, 32, 32, 32, 32, 32, 32, 32, 32, 32, 32, 125],
  -- C26 { unassigned4                                                              }
  [67, 50, 54, 32, 123, 32, 117, 110, 97, 115, 115, 105, 103, 110, 101, 100, 52, 32, 32, 32,
   32, 32, 32, 32, 32, 32, 32, 32, 32, 32, 32, 32, 32, 32, 32, 32, 32, 32, 32, 32,
   32, 32, 32, 32, 32, 32, 32, 32, 32, 32, 32, 32, 32, 32, 32, 32, 32, 32, 32, 32,
   32, 32, 32, 32, 32, 32, 32, 32, 32, 32, 32, 32, 32, 32, 32, 32, 32, 32, 32, 125],
  -- C27 { unassigned5                                                              }
  [67, 50, 55, 32, 123, 32, 117, 110, 97, 115, 115, 105, 103, 110, 101, 100, 53, 32, 32, 32,
   32, 32, 32, 32, 32, 32, 32, 32, 32, 32, 32, 32, 32, 32, 32, 32, 32, 32, 32, 32,
   32, 32, 32, 32, 32, 32, 32, 32, 32, 32, 32, 32, 32, 32, 32, 32, 32, 32, 32, 32,
   32, 32, 32, 32, 32, 32, 32, 32, 32, 32, 32, 32, 32, 32, 32, 32, 32, 32, 32, 125],
  -- C28 { unassigned6                                                              }
  [67, 50, 56, 32, 123, 32, 117, 110, 97, 115, 115, 105, 103, 110, 101, 100, 54, 32, 32, 32,
   32, 32, 32, 32, 32, 32, 32, 32, 32, 32, 32, 32, 32, 32, 32, 32, 32, 32, 32, 32,
   32, 32, 32, 32, 32, 32, 32, 32, 32, 32, 32, 32, 32, 32, 32, 32, 32, 32, 32, 32,
   32, 32, 32, 32, 32, 32, 32, 32, 32, 32, 32, 32, 32, 32, 32, 32, 32, 32, 32, 125],
  -- C29 { unassigned7                                                              }
  [67, 50, 57, 32, 123, 32, 117, 110, 97, 115, 115, 105, 103, 110, 101, 100, 55, 32, 32, 32,
   32, 32, 32, 32, 32, 32, 32, 32, 32, 32, 32, 32, 32, 32, 32, 32, 32, 32, 32, 32,
   32, 32, 32, 32, 32, 32, 32, 32, 32, 32, 32, 32, 32, 32, 32, 32, 32, 32, 32, 32,
   32, 32, 32, 32, 32, 32, 32, 32, 32, 32, 32, 32, 32, 32, 32, 32, 32, 32, 32, 125],
  -- C30 { unassigned8                                                              }
  [67, 51, 48, 32, 123, 32, 117, 110, 97, 115, 115, 105, 103, 110, 101, 100, 56, 32, 32, 32,
   32, 32, 32, 32, 32, 32, 32, 32, 32, 32, 32, 32, 32, 32, 32, 32, 32, 32, 32, 32,
   32, 32, 32, 32, 32, 32, 32, 32, 32, 32, 32, 32, 32, 32, 32, 32, 32, 32, 32, 32,
   32, 32, 32, 32, 32, 32, 32, 32, 32, 32, 32, 32, 32, 32, 32, 32, 32, 32, 32, 125],
  -- C31 { unassigned9                                                              }
  [67, 51, 49, 32, 123, 32, 117, 110, 97, 115, 115, 105, 103, 110, 101, 100, 57, 32, 32, 32,
   32, 32, 32, 32, 32, 32, 32, 32, 32, 32, 32, 32, 32, 32, 32, 32, 32, 32, 32, 32,
   32, 32, 32, 32, 32, 32, 32, 32, 32, 32, 32, 32, 32, 32, 32, 32, 32, 32, 32, 32,
   32, 32, 32, 32, 32, 32, 32, 32, 32, 32, 32, 32, 32, 32, 32, 32, 32, 32, 32, 125],
  -- C32 { unassigned10                                                             }
  [67, 51, 50, 32, 123, 32, 117, 110, 97, 115, 115, 105, 103, 110, 101, 100, 49, 48, 32, 32,
   32, 32, 32, 32, 32, 32, 32, 32, 32, 32, 32, 32, 32, 32, 32, 32, 32, 32, 32, 32,
   32, 32, 32, 32, 32, 32, 32, 32, 32, 32, 32, 32, 32, 32, 32, 32, 32, 32, 32, 32,
   32, 32, 32, 32, 32, 32, 32, 32, 32, 32, 32, 32, 32, 32, 32, 32, 32, 32, 32, 125],
  -- C33 { unassigned11                                                             }
  [67, 51, 51, 32, 123, 32, 117, 110, 97, 115, 115, 105, 103, 110, 101, 100, 49, 49, 32, 32,
   32, 32, 32, 32, 32, 32, 32, 32, 32, 32, 32, 32, 32, 32, 32, 32, 32, 32, 32, 32,
   32, 32, 32, 32, 32, 32, 32, 32, 32, 32, 32, 32, 32, 32, 32, 32, 32, 32, 32, 32,
   32, 32, 32, 32, 32, 32, 32, 32, 32, 32, 32, 32, 32, 32, 32, 32, 32, 32, 32, 125],
  -- C34 { unassigned12                                                             }
  [67, 51, 52, 32, 123, 32, 117, 110, 97, 115, 115, 105, 103, 110, 101, 100, 49, 50, 32, 32,
   32, 32, 32, 32, 32, 32, 32, 32, 32, 32, 32, 32, 32, 32, 32, 32, 32, 32, 32, 32,
   32, 32, 32, 32, 32, 32, 32, 32, 32, 32, 32, 32, 32, 32, 32, 32, 32, 32, 32, 32,
   32, 32, 32, 32, 32, 32, 32, 32, 32, 32, 32, 32, 32, 32, 32, 32, 32, 32, 32, 125],
  -- C35 { unassigned13                                                             }
  [67, 51, 53, 32, 123, 32, 117, 110, 97, 115, 115, 105, 103, 110, 101, 100, 49, 51, 32, 32,
   32, 32, 32, 32, 32, 32, 32, 32, 32, 32, 32, 32, 32, 32, 32, 32, 32, 32, 32, 32,
   32, 32, 32, 32, 32, 32, 32, 32, 32, 32, 32, 32, 32, 32, 32, 32, 32, 32, 32, 32,
   32, 32, 32, 32, 32, 32, 32, 32, 32, 32, 32, 32, 32, 32, 32, 32, 32, 32, 32, 125],
  -- C36 { unassigned14                                                             }
  [67, 51, 54, 32, 123, 32, 117, 110, 97, 115, 115, 105, 103, 110, 101, 100, 49, 52, 32, 32,
   32, 32, 32, 32, 32, 32, 32, 32, 32, 32, 32, 32, 32, 32, 32, 32, 32, 32, 32, 32,
   32, 32, 32, 32, 32, 32, 32, 32, 32, 32, 32, 32, 32, 32, 32, 32, 32, 32, 32, 32,
   32, 32, 32, 32, 32, 32, 32, 32, 32, 32, 32, 32, 32, 32, 32, 32, 32, 32, 32, 125],
  -- C37 { unassigned15                                                             }
  [67, 51, 55, 32, 123, 32, 117, 110, 97, 115, 115, 105, 103, 110, 101, 100, 49, 53, 32, 32,
   32, 32, 32, 32, 32, 32, 32, 32, 32, 32, 32, 32, 32, 32, 32, 32, 32, 32, 32, 32,
   32, 32, 32, 32, 32, 32, 32, 32, 32, 32, 32, 32, 32, 32, 32, 32, 32, 32, 32, 32,
   32, 32, 32, 32, 32, 32, 32, 32, 32, 32, 32, 32, 32, 32, 32, 32, 32, 32, 32, 125],
  -- C38 { unassigned16                                                             }
  [67, 51, 56, 32, 123, 32, 117, 110, 97, 115, 115, 105, 103, 110, 101, 100, 49, 54, 32, 32,
   32, 32, 32, 32, 32, 32, 32, 32, 32, 32, 32, 32, 32, 32, 32, 32, 32, 32, 32, 32,
   32, 32, 32, 32, 32, 32, 32, 32, 32, 32, 32, 32, 32, 32, 32, 32, 32, 32, 32, 32,
   32, 32, 32, 32, 32, 32, 32, 32, 32, 32, 32, 32, 32, 32, 32, 32, 32, 32, 32, 125],
  -- C39 { unassigned17                                                             }
  [67, 51, 57, 32, 123, 32, 117, 110, 97, 115, 115, 105, 103, 110, 101, 100, 49, 55, 32, 32,
   32, 32, 32, 32, 32, 32, 32, 32, 32, 32, 32, 32, 32, 32, 32, 32, 32, 32, 32, 32,
   32, 32, 32, 32, 32, 32, 32, 32, 32, 32, 32, 32, 32, 32, 32, 32, 32, 32, 32, 32,
   32, 32, 32, 32, 32, 32, 32, 32, 32, 32, 32, 32, 32, 32, 32, 32, 32, 32, 32, 125],
  -- C40 { end_marker                                                               }
  [67, 52, 48, 32, 123, 32, 101, 110, 100, 95, 109, 97, 114, 107, 101, 114, 32, 32, 32, 32,
   32, 32, 32, 32, 32, 32, 32, 32, 32, 32, 32, 32, 32, 32, 32, 32, 32, 32, 32, 32,
   32, 32, 32, 32, 32, 32, 32, 32, 32, 32, 32, 32, 32, 32, 32, 32, 32, 32, 32, 32,
   32, 32, 32, 32, 32, 32, 32, 32, 32, 32, 32, 32, 32, 32, 32, 32, 32, 32, 32, 125]]

/-- `TEMPLATE`, textual_reel_header.py:51-51. -/
def TEMPLATE : PyStr := templateLines.flatten.map Char.ofNat

/-- `TEMPLATE_FIELD_NAMES`, textual_reel_header.py:59-151: placeholder name to field name. -/
def TEMPLATE_FIELD_NAMES : List (String × String) := [
  ("client", "client"),
  ("company", "company"),
  ("crew", "crew_number"),
  ("line", "line"),
  ("area", "area"),
  ("map_id", "map_id"),
  ("reelnum", "reel_number"),
  ("d", "day_start_of_reel"),
  ("yr", "year"),
  ("observer", "observer"),
  ("mfg", "instrument_manufacturer"),
  ("model", "instrument_model"),
  ("serial", "instrument_serial"),
  ("dtpr", "data_traces_per_record"),
  ("atpr", "auxiliary_traces_per_record"),
  ("cdpfold", "cdp_fold"),
  ("intvl", "sample_interval"),
  ("spt", "samples_per_trace"),
  ("bi", "bits_per_inch"),
  ("bps", "bytes_per_sample"),
  ("rfmt", "recording_format"),
  ("ftr", "format_this_reel"),
  ("measmnt", "measurement_system"),
  ("f", "sample_code_floating_point"),
  ("x", "sample_code_fixed_point"),
  ("g", "sample_code_fixed_point_gain"),
  ("cor", "sample_code_correlated"),
  ("i", "gain_type_fixed"),
  ("b", "gain_type_binary"),
  ("c", "gain_type_fixed_point_gain"),
  ("other", "gain_type_other"),
  ("a", "filters_alias_hz"),
  ("n", "filters_notch_hz"),
  ("b1", "filters_band_lower_hz"),
  ("b2", "filters_band_upper_hz"),
  ("s", "filters_slope_lower_db_per_oct"),
  ("s2", "filters_slope_upper_db_per_oct"),
  ("type", "source_type"),
  ("npt", "source_number_per_point"),
  ("point_interval", "source_point_interval"),
  ("source_pattern", "source_pattern"),
  ("lent", "source_length"),
  ("width", "source_width"),
  ("ss", "sweep_start_hz"),
  ("se", "sweep_end_hz"),
  ("lms", "sweep_length_ms"),
  ("q", "sweep_channel_number"),
  ("cd", "sweep_type"),
  ("tsl", "taper_start_length_ms"),
  ("tel", "taper_end_length_ms"),
  ("taper_type", "taper_type"),
  ("off", "spread_offset"),
  ("md", "spread_max_distance"),
  ("group_interval", "spread_group_interval"),
  ("p", "geophones_per_group"),
  ("y", "geophone_spacing"),
  ("r", "geophone_frequency"),
  ("gmfg", "geophone_manufacturer"),
  ("gmod", "geophone_model"),
  ("geophone_pattern", "geophone_pattern"),
  ("glen", "geophone_length"),
  ("geophone_width", "geophone_width"),
  ("u", "traces_sorted_by_record"),
  ("v", "traces_sorted_by_cdp"),
  ("sort_other", "traces_sorted_by_other"),
  ("ar", "amplitude_recovery_none"),
  ("sd", "amplitude_recovery_spherical_div"),
  ("", "amplitude_recovery_agc"),
  ("ar_other", "amplitude_recovery_other"),
  ("map_projection", "map_projection"),
  ("zid", "zone_id"),
  ("co_units", "coordinate_units"),
  ("processing1", "processing1"),
  ("processing2", "processing2"),
  ("unassigned1", "unassigned1"),
  ("unassigned2", "unassigned2"),
  ("unassigned3", "unassigned3"),
  ("unassigned4", "unassigned4"),
  ("unassigned5", "unassigned5"),
  ("unassigned6", "unassigned6"),
  ("unassigned7", "unassigned7"),
  ("unassigned8", "unassigned8"),
  ("unassigned9", "unassigned9"),
  ("unassigned10", "unassigned10"),
  ("unassigned11", "unassigned11"),
  ("unassigned12", "unassigned12"),
  ("unassigned13", "unassigned13"),
  ("unassigned14", "unassigned14"),
  ("unassigned15", "unassigned15"),
  ("unassigned16", "unassigned16"),
  ("unassigned17", "unassigned17"),
  ("end_marker", "end_marker")]

/-- `END_TEXTUAL_HEADER`, textual_reel_header.py:53-53. -/
def END_TEXTUAL_HEADER : PyStr := "END TEXTUAL HEADER".toList

/-- `END_EBCDIC`, textual_reel_header.py:54-54. -/
def END_EBCDIC : PyStr := "END EBCDIC".toList

end Segpy
