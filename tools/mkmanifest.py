#!/usr/bin/env python3
"""Writes MANIFEST.json.  One entry per property: status, theorems, note."""
import json, os
here = os.path.dirname(os.path.abspath(__file__))
C = {}
def claim(p, status, theorems, note=""):
    C[p] = {"property": p, "status": status, "theorems": theorems, "note": note}

claim("C02", "proved", ["C02_conforming", "C02_complete", "C02_prefix_codes"],
  "for every lawful Huffman library, match finder, option set, call sequence and sink; C02_complete: if the library only makes complete codes, any RFC decoder accepts the stream")
claim("C10", "partial", ["C10_partial", "C10_only", "C10_fails"],
  "FALSE of the code: at memory level 8 or 9 (the default) one Write of 64 KiB incompressible data without matches panics (C10_fails, every library). Proved: no panic with memory level <= 7 or level 0, and the only possible panic is that one (C10_only)")
claim("C11", "proved", ["C11_sync"], "")
claim("C12", "partial", ["C12_partial", "C12_fails"],
  "FALSE of the code: the PartialFlush documentation's guarantee fails when the output buffer holds the bytes back; C12_fails is a concrete run, C12_partial says what does hold")
claim("C13", "proved", ["C13_full"], "")
claim("C14", "proved", ["C14_segments", "C14_empty", "C14_two", "C14_close_after_finish"], "")
claim("C15", "proved", ["C15_reported", "C15_no_false_success", "C15_sticky"], "")
claim("C16", "proved", ["C16_closed"], "")
claim("C18", "proved", ["C18_write"], "")
claim("C22", "proved", ["C22_setHeader"], "")
claim("C29", "proved", ["C29_bounded", "C29_total"], "")
claim("C30", "partial", ["C30_static", "C30_dynamic", "C30_stored", "C30_choice_partial", "C30_fails"],
  "estimates are exact; the choice is not always the cheapest (C30_fails: padding ignored)")
claim("C31", "partial", ["C31_fails"], "FALSE of the code: FixedStrategy emits dynamic blocks; C31_fails is a concrete run")
claim("C32", "proved", ["C32_stored_partial", "C32_static_partial", "C32_huffmanOnly", "C32_rle"],
  "level 0 emits only stored blocks unless PartialFlush is used, which adds empty static blocks (C32_static_partial covers histories with PartialFlush)")
claim("C33", "proved", ["C33_prefix", "C33_complete"], "")
claim("C48", "partial", ["C48_first_partial", "C48_after_SetHeader_partial", "C48_sticky"],
  "FALSE for later streams of one Writer: the detected type sticks (C48_sticky); proved for the first stream and the first after SetHeader")
exec(open(os.path.join(here, "claims_extra.py")).read())
json.dump({"claims": [C[k] for k in sorted(C)]}, open(os.path.join(here, "..", "MANIFEST.json"), "w"), indent=1)
print(len(C), "claims")
