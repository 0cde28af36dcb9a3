#!/bin/bash
export PATH=/app/lean4-4.33.0/build/release/stage1/bin:$PATH
cd ${2:-/verif/lean} && time lake build $1
